import Verif.Identifier.Props

/-!
# `base64.RawURLEncoding` of the standard library, as the identifiers use it

`identifier/32byte/uuid.go` writes the short form of an identifier with `EncodeToString` (line 30) and reads it with `Decode` into an array of
eight bytes (lines 102-112). The decoder of the standard library takes four characters at a time, skips line breaks, does not look at the bits
that are left over at the end, and has written all bytes of the groups before a bad character when it reports it.
-/

namespace Memar.Identifier.Go64
open Memar

/-- The alphabet of `base64.RawURLEncoding`. -/
def charOf (d : Nat) : Byte :=
  if d < 26 then BitVec.ofNat 8 (65 + d)
  else if d < 52 then BitVec.ofNat 8 (71 + d)
  else if d < 62 then BitVec.ofNat 8 (d - 4)
  else if d = 62 then 45#8 else 95#8

/-- `decodeMap` of `base64.RawURLEncoding`: the value of a character. -/
def sextet (c : Byte) : Option Nat :=
  if 65 ≤ c.toNat ∧ c.toNat ≤ 90 then some (c.toNat - 65)
  else if 97 ≤ c.toNat ∧ c.toNat ≤ 122 then some (c.toNat - 71)
  else if 48 ≤ c.toNat ∧ c.toNat ≤ 57 then some (c.toNat + 4)
  else if c.toNat = 45 then some 62
  else if c.toNat = 95 then some 63
  else none

/-- `Encode` (identifier/32byte/uuid.go:30): three bytes give four characters, a rest of two gives three and a rest of one gives two. -/
def encode : Bytes → Bytes
  | a :: b :: c :: rest =>
    [charOf (a.toNat / 4), charOf (a.toNat % 4 * 16 + b.toNat / 16), charOf (b.toNat % 16 * 4 + c.toNat / 64), charOf (c.toNat % 64)] ++ encode rest
  | [a, b] => [charOf (a.toNat / 4), charOf (a.toNat % 4 * 16 + b.toNat / 16), charOf (b.toNat % 16 * 4)]
  | [a] => [charOf (a.toNat / 4), charOf (a.toNat % 4 * 16)]
  | [] => []

/-- The three bytes `decodeQuantum` makes of up to four values, of which missing ones are zero. -/
def group (ds : List Nat) : Bytes :=
  let val := ds.getD 0 0 * 262144 + ds.getD 1 0 * 4096 + ds.getD 2 0 * 64 + ds.getD 3 0
  [BitVec.ofNat 8 (val / 65536), BitVec.ofNat 8 (val / 256), BitVec.ofNat 8 val]

/-- `Decode` (identifier/32byte/uuid.go:105): the bytes written and whether there was no error; `ds` are the values of the group so far. The
library also has loops for eight and four good characters at once, which write the same bytes, and zeros behind them that the array of
identifier/32byte/uuid.go:104 holds already. A group that was begun is not written when a bad character follows. -/
def decode : List Nat → Bytes → Bytes × Bool
  | ds, [] =>
    match ds.length with
    | 0 => ([], true)
    | 1 => ([], false)
    | k + 2 => ((group ds).take (k + 1), true)
  | ds, c :: cs =>
    match sextet c with
    | some d =>
      if ds.length = 3 then (group (ds ++ [d]) ++ (decode [] cs).1, (decode [] cs).2) else decode (ds ++ [d]) cs
    | none => if c.toNat = 10 ∨ c.toNat = 13 then decode ds cs else ([], false)

/-- identifier/32byte/uuid.go:102-112 `IDfromString` -/
def idFromString (s : Bytes) : Option U64 := U32B.idFromString (decode []) s

/-- identifier/32byte/uuid.go:30 `IDasString` -/
def idAsString (id : Bytes) : Option Bytes := U32B.idAsString encode id

end Memar.Identifier.Go64
