import Verif.Base
import Verif.Strings
import Verif.Decimal

/-!
# Package `json`: the encoder and the decoders

A decoder is the record of its three fields; a method with a pointer receiver is a function from
the old decoder to the new one. `none` is a run-time panic.

* `convert.StringToUint8Base10` … `StringToUint64Base10` (decode.go:174,186,198,210) are called by
  the package but defined nowhere in the repository; they are the parameter `p`, the result
  `none` standing for a non-nil error.
* `strconv.ParseInt` and `base64.RawStdEncoding` are standard-library calls, also parameters.
* `strconv.AppendUint(buf, x, 10)`/`AppendInt` append decimal notation.
* `DecodeFloat64AsNumber` and `EncodeFloat32/64` are in Verif/Json/Stream.lean and Verif/Json/More.lean; the `Options` fields
  (never read) are left out.
* A slice has no capacity beyond its length, so that slicing past the length panics, except in `encodeBase64`.
-/

namespace Memar.Json
open Memar Decimal

/-- json/errors.go: the error values returned by the decoders. -/
inductive Err where
  | integerCorrupted | stringCorrupted | arrayCorrupted | sliceCorrupted | notDefinedKey
  deriving DecidableEq, Repr

/-! ## Encoder (encode.go). The encoder is its buffer. -/

/-- json/encode.go:36-38 `AddTrailingComma` -/
def addTrailingComma (buf : Bytes) : Bytes := buf ++ [ch ',']

/-- json/encode.go:41-46 `RemoveTrailingComma`: `e.buf[len-1]` panics on an empty buffer. -/
def removeTrailingComma (buf : Bytes) : Option Bytes :=
  match buf.getLast? with
  | none => none
  | some c => if c = ch ',' then some buf.dropLast else some buf

/-- json/encode.go:49-51 `EncodeByte` -/
def encodeByte (buf : Bytes) (b : Byte) : Bytes := buf ++ [b]

/-- json/encode.go:54-60 `EncodeBoolean` -/
def encodeBoolean (buf : Bytes) (b : Bool) : Bytes :=
  if b then buf ++ bs "true" else buf ++ bs "false"

/-- json/encode.go:64-82 `EncodeUInt8`, `EncodeUInt16`, `EncodeUInt32`, `EncodeUInt64` -/
def encodeUInt {w} (buf : Bytes) (ui : BitVec w) : Bytes := buf ++ decDigits ui.toNat

/-- Decimal notation of a signed number, the meaning of `strconv.AppendInt(_, i, 10)`. -/
def intDigits (i : Int) : Bytes := if i < 0 then ch '-' :: decDigits i.natAbs else decDigits i.natAbs

/-- json/encode.go:85-87 `EncodeInt64` -/
def encodeInt64 (buf : Bytes) (i : U64) : Bytes := buf ++ intDigits i.toInt

/-- json/encode.go:100-102 `EncodeString` -/
def encodeString (buf s : Bytes) : Bytes := buf ++ s

/-- json/encode.go:105-109 `EncodeKey` -/
def encodeKey (buf s : Bytes) : Bytes := buf ++ [ch '"'] ++ s ++ bs "\":"

/-- json/encode.go:112-116 `EncodeStringValue` -/
def encodeStringValue (buf s : Bytes) : Bytes := buf ++ [ch '"'] ++ s ++ bs "\","

/-- The loop of json/encode.go:126-130 (and 136-140, 146-150, 156-160). -/
def encodeSliceLoop {w} (buf : Bytes) : List (BitVec w) → Bytes
  | [] => buf
  | v :: r => encodeSliceLoop (encodeByte (encodeUInt buf v) (ch ',')) r

/-- json/encode.go:125-162 `EncodeByteSliceAsNumber`, `EncodeUInt16SliceAsNumber`,
`EncodeUInt32SliceAsNumber`, `EncodeUInt64SliceAsNumber` -/
def encodeSlice {w} (buf : Bytes) (s : List (BitVec w)) : Option Bytes :=
  removeTrailingComma (encodeSliceLoop buf s)

/-- json/encode.go:171-176 `EncodeByteSliceAsBase64`: the buffer is re-sliced inside its capacity
`cap`, which panics when the room is too small. `enc` is `base64.RawStdEncoding.Encode`, whose
output has `EncodedLen` bytes. -/
def encodeBase64 (enc : Bytes → Bytes) (buf : Bytes) (cap : Nat) (s : Bytes) : Option Bytes :=
  if buf.length + (enc s).length ≤ cap then some (buf ++ enc s) else none

/-! ## Decoder (decode.go) -/

/-- json/decode.go:15-24 `Decoder` -/
structure Decoder where
  buf : Bytes
  token : Byte := 0
  lastItem : Bytes := []
  deriving DecidableEq, Repr

/-- json/decode.go:27-30 `Init` on a zero `Decoder`. -/
def Decoder.init (buf : Bytes) : Decoder := { buf := buf }

/-- json/decode.go:35-37 `Offset` -/
def Decoder.offset (d : Decoder) (o : Nat) : Option Decoder :=
  (sliceFrom d.buf o).map fun b => { d with buf := b }

/-- The loop of json/decode.go:41-59: the bytes before the first `,` `]` or `}`, that byte, and the
buffer from that byte on. -/
def findEnd : Bytes → Option (Bytes × Byte × Bytes)
  | [] => none
  | c :: r =>
    if c = ch ',' then some ([], ch ',', c :: r)
    else if c = ch ']' then some ([], ch ']', c :: r)
    else if c = ch '}' then some ([], ch '}', c :: r)
    else (findEnd r).map fun x => (c :: x.1, x.2)

/-- json/decode.go:40-60 `FindEndToken`: nothing changes when there is no end token. -/
def Decoder.findEndToken (d : Decoder) : Decoder :=
  match findEnd d.buf with
  | some (item, t, rest) => { d with buf := rest, token := t, lastItem := item }
  | none => d

/-- The search loop of json/decode.go:64-69 and 74-79: the buffer from the first byte satisfying `f`,
the buffer itself when there is none. -/
def dropTo (f : Byte → Bool) (buf : Bytes) : Bytes :=
  match buf.dropWhile (fun c => !f c) with
  | [] => buf
  | r => r

/-- json/decode.go:65 `'0' <= c && c <= '9'` -/
def digit (c : Byte) : Bool := 48#8 ≤ c ∧ c ≤ 57#8

/-- json/decode.go:63-70 `TrimToDigit` -/
def Decoder.trimToDigit (d : Decoder) : Decoder := { d with buf := dropTo digit d.buf }

/-- json/decode.go:73-80 `TrimSpaces` -/
def Decoder.trimSpaces (d : Decoder) : Decoder := { d with buf := dropTo (fun c => c ≠ ch ' ') d.buf }

/-- json/decode.go:83-90 `TrimToStringStart` -/
def Decoder.trimToStringStart (d : Decoder) : Decoder :=
  match indexByte d.buf (ch '"') with
  | some i => { d with buf := d.buf.drop (i + 1) }
  | none => d

/-- The loop of json/decode.go:94-106. Slicing `d.buf[i:i+4]` past the end of the buffer panics
(Go allows it inside the capacity: see `Verif.Shared.Windows` for that). -/
def checkNull (null : Bool) : Bytes → Option Bool
  | [] => some null
  | c :: r =>
    if c = ch 'n' then
      if r.length < 3 then none else checkNull (null || (r.take 3 == bs "ull")) r
    else if c = ch '"' then some false
    else if c = ch ',' then some null
    else checkNull null r

/-- json/decode.go:93-107 `CheckNullValue` -/
def Decoder.checkNullValue (d : Decoder) : Option Bool := checkNull false d.buf

/-- json/decode.go:124-137 `DecodeKey`. A missing `:` gives `loc = -1` and the slice `d.buf[0:]`. -/
def Decoder.decodeKey (d : Decoder) : Decoder × Bytes :=
  let d := d.trimToStringStart
  match indexByte d.buf (ch '"') with
  | none => (d, [])
  | some loc =>
    let key := d.buf.take loc
    let buf := d.buf.drop (loc + 1)
    match indexByte buf (ch ':') with
    | none => ({ d with buf := buf }, key)
    | some l => ({ d with buf := buf.drop (l + 1) }, key)

/-- json/decode.go:140-143 `NotFoundKey` -/
def Decoder.notFoundKey (d : Decoder) : Decoder := d.findEndToken

/-- json/decode.go:150-155 `End` -/
def Decoder.atEnd (d : Decoder) : Bool := d.buf.length < 3 ∨ d.token = ch '}'

/-- json/decode-minified.go:29-38 `DecodeBool`, also the second half of json/decode.go:158-168. -/
def Decoder.minBool (d : Decoder) : Option (Decoder × Bool) :=
  match d.buf with
  | [] => none
  | c :: _ =>
    if c = ch 't' then (d.offset 5).map fun d => (d, true)
    else (d.offset 6).map fun d => (d, false)

/-- json/decode.go:158-168 `DecodeBool` -/
def Decoder.decodeBool (d : Decoder) : Option (Decoder × Bool) := d.trimSpaces.minBool

/-- json/decode-minified.go:41-82 `DecodeUInt8` … `DecodeUInt64` of `DecoderMinified`. -/
def Decoder.minUInt {w} (p : Bytes → Option (BitVec w)) (d : Decoder) :
    Decoder × Except Err (BitVec w) :=
  let d := d.findEndToken
  match p d.lastItem with
  | some v => (d, .ok v)
  | none => (d, .error .integerCorrupted)

/-- json/decode.go:171-216 `DecodeUInt8`, `DecodeUInt16`, `DecodeUInt32`, `DecodeUInt64` -/
def Decoder.decodeUInt {w} (p : Bytes → Option (BitVec w)) (d : Decoder) :
    Decoder × Except Err (BitVec w) := d.trimToDigit.minUInt p

/-- json/decode-minified.go:98-106 `DecodeInt64` of `DecoderMinified`, and 85-95 `DecodeInt32`. -/
def Decoder.minInt {w} (p : Bytes → Option (BitVec w)) (e : Err) (d : Decoder) :
    Decoder × Except Err (BitVec w) :=
  let d := d.findEndToken
  match p d.lastItem with
  | some v => (d, .ok v)
  | none => (d, .error e)

/-- json/decode.go:219-228 `DecodeInt64`; `p` is `strconv.ParseInt(_, 10, 64)`. -/
def Decoder.decodeInt {w} (p : Bytes → Option (BitVec w)) (d : Decoder) :
    Decoder × Except Err (BitVec w) := d.trimToDigit.minInt p .integerCorrupted

/-- json/decode.go:248-259: the part of `DecodeString` after the null check. -/
def Decoder.stringBody (d : Decoder) : Decoder × Except Err Bytes :=
  let d := d.trimToStringStart
  match indexByte d.buf (ch '"') with
  | none => (d, .error .stringCorrupted)
  | some loc => ({ d with buf := d.buf.drop (loc + 1) }, .ok (d.buf.take loc))

/-- json/decode.go:243-260 `DecodeString` -/
def Decoder.decodeString (d : Decoder) : Option (Decoder × Except Err Bytes) :=
  match d.checkNullValue with
  | none => none
  | some true => some (d, .ok [])
  | some false => some d.stringBody

/-- json/decode-unsafe.go:18-37 `DecodeString` of `DecoderUnsafe`: a missing first quote gives
`loc + 1 = 0`, so nothing is removed, which is what `trimToStringStart` does. -/
def Decoder.unsafeString (d : Decoder) : Option (Decoder × Except Err Bytes) :=
  match d.checkNullValue with
  | none => none
  | some true => some (d, .ok [])
  | some false => some d.stringBody

/-- json/decode-minified.go:120-131 `DecodeString` of `DecoderMinified`; on an empty buffer
`loc = -1` and `d.buf[:-1]` panics. -/
def Decoder.minString (d : Decoder) : Option (Decoder × Bytes) :=
  match indexByte d.buf (ch '"') with
  | some loc => some ({ d with buf := d.buf.drop (loc + 1) }, d.buf.take loc)
  | none => if d.buf = [] then none else some ({ d with buf := [] }, d.buf.dropLast)

/-- json/decode-minified-unsafe.go:18-31 `DecodeString` of `DecoderUnsafeMinified` -/
def Decoder.unsafeMinString (d : Decoder) : Option (Decoder × Except Err Bytes) :=
  (d.offset 1).map fun d =>
    match indexByte d.buf (ch '"') with
    | none => (d, .error .stringCorrupted)
    | some loc => ({ d with buf := d.buf.drop (loc + 1) }, .ok (d.buf.take loc))

/-- json/decode-minified.go:20-26 `DecodeKey` of `DecoderMinified`: without a closing quote
`d.buf[:-1]` panics. -/
def Decoder.minKey (d : Decoder) : Option (Decoder × Bytes) := do
  let d ← d.offset 2
  let loc ← indexByte d.buf (ch '"')
  let d' ← d.offset (loc + 2)
  some (d', d.buf.take loc)

/-! ## Arrays and slices of numbers

The loops of the slice decoders are not bounded by the buffer, so they are run with a number of
rounds; `running` says the rounds were not enough. -/

/-- Outcome of a method with a loop. -/
inductive Run (α : Type) where
  | panic
  | running
  | done (d : Decoder) (r : Except Err α)
  deriving DecidableEq

/-- json/decode.go:296-304: the loop of `DecodeByteArrayAsNumber` for `n` elements. The elements
written so far are returned also on an error. -/
def arrayLoop {w} (p : Bytes → Option (BitVec w)) : Nat → Decoder → List (BitVec w) →
    Decoder × List (BitVec w) × Option Err
  | 0, d, acc => (d, acc, if d.token = ch ']' then none else some .arrayCorrupted)
  | n + 1, d, acc =>
    match d.decodeUInt p with
    | (d, .error _) => (d, acc, some .arrayCorrupted)
    | (d, .ok v) => arrayLoop p n d.findEndToken (acc ++ [v])

/-- json/decode.go:290-309 `DecodeByteArrayAsNumber` of an array of length `n`. -/
def Decoder.decodeArray {w} (p : Bytes → Option (BitVec w)) (n : Nat) (d : Decoder) :
    Option (Decoder × List (BitVec w) × Option Err) :=
  match d.checkNullValue with
  | none => none
  | some true => some (d, [], none)
  | some false => some (arrayLoop p n d [])

/-- json/decode.go:320-329 (and 338-347, 356-365, 374-383): the loop of the slice decoders. -/
def sliceLoop {w} (p : Bytes → Option (BitVec w)) : Nat → Decoder → List (BitVec w) →
    Run (List (BitVec w))
  | 0, _, _ => .running
  | n + 1, d, acc =>
    if d.token = ch ']' then .done { d with token := 0 } (.ok acc)
    else
      match d.decodeUInt p with
      | (d, .error _) => .done d (.error .sliceCorrupted)
      | (d, .ok v) => sliceLoop p n d.findEndToken (acc ++ [v])

/-- json/decode.go:316-385 `DecodeByteSliceAsNumber`, `DecodeUInt16SliceAsNumber`,
`DecodeUInt32SliceAsNumber`, `DecodeUInt64SliceAsNumber` -/
def Decoder.decodeSlice {w} (p : Bytes → Option (BitVec w)) (rounds : Nat) (d : Decoder) :
    Run (List (BitVec w)) := sliceLoop p rounds d []

/-- json/decode-minified.go:186-194 (and 204-212, 222-230, 240-248) -/
def minSliceLoop {w} (p : Bytes → Option (BitVec w)) : Nat → Decoder → List (BitVec w) →
    Run (List (BitVec w))
  | 0, _, _ => .running
  | n + 1, d, acc =>
    if d.token = ch ']' then .done { d with token := 0 } (.ok acc)
    else
      match d.minUInt p with
      | (d, .error _) => .done d (.error .sliceCorrupted)
      | (d, .ok v) =>
        match d.offset 1 with
        | none => .panic
        | some d => minSliceLoop p n d (acc ++ [v])

/-- json/decode-minified.go:181-250, the slice decoders of `DecoderMinified`. -/
def Decoder.minSlice {w} (p : Bytes → Option (BitVec w)) (rounds : Nat) (d : Decoder) :
    Run (List (BitVec w)) :=
  match d.offset 1 with
  | none => .panic
  | some d => minSliceLoop p rounds d []

/-- json/decode-minified.go:160-168 -/
def minArrayLoop {w} (p : Bytes → Option (BitVec w)) : Nat → Decoder → List (BitVec w) →
    Option (Decoder × List (BitVec w) × Option Err)
  | 0, d, acc =>
    match d.buf with
    | [] => none
    | c :: r => some ({ d with buf := r }, acc, if c = ch ']' then none else some .arrayCorrupted)
  | n + 1, d, acc =>
    match d.offset 1 with
    | none => none
    | some d =>
      match d.minUInt p with
      | (d, .error _) => some (d, acc, some .arrayCorrupted)
      | (d, .ok v) => minArrayLoop p n d (acc ++ [v])

/-- json/decode-minified.go:158-174 `DecodeByteArrayAsNumber` of `DecoderMinified`. -/
def Decoder.minArray {w} (p : Bytes → Option (BitVec w)) (n : Nat) (d : Decoder) :
    Option (Decoder × List (BitVec w) × Option Err) := minArrayLoop p n d []

/-! ## Base64 -/

/-- json/decode.go:392-411 `DecodeByteSliceAsBase64`; `dec` is `base64.RawStdEncoding.Decode`. -/
def Decoder.decodeBase64 (dec : Bytes → Option Bytes) (d : Decoder) : Decoder × Except Err Bytes :=
  let d := d.trimToStringStart
  match indexByte d.buf (ch '"') with
  | none => (d, .error .sliceCorrupted)
  | some loc =>
    match dec (d.buf.take loc) with
    | none => (d, .error .sliceCorrupted)
    | some s => (d.findEndToken, .ok s)

/-- json/decode-minified.go:257-274 `DecodeByteSliceAsBase64` of `DecoderMinified`. -/
def Decoder.minBase64 (dec : Bytes → Option Bytes) (d : Decoder) :
    Option (Decoder × Except Err Bytes) := do
  let d ← d.offset 1
  let loc ← indexByte d.buf (ch '"')
  match dec (d.buf.take loc) with
  | none => some (d, .error .sliceCorrupted)
  | some s => (d.offset (loc + 1)).map fun d => (d, .ok s)

/-- json/encode.go:195-205 `Encode32ByteArraySliceAsBase64`, in a buffer with enough capacity. -/
def encode32 (enc : Bytes → Bytes) (buf : Bytes) (s : List Bytes) : Option Bytes :=
  removeTrailingComma (s.foldl (fun b a => b ++ [ch '"'] ++ enc a ++ bs "\",") buf)

/-- json/decode.go:426-436; `dec` answers the 32 bytes of 43 base64 characters (with line breaks among them, which Go skips, it would
answer fewer and the array would keep bytes of the item before). A shorter document panics (in a larger buffer it may be refused with an
error instead: see `Verif.Shared.Windows`). -/
def slice32Loop (dec : Bytes → Option Bytes) : Nat → Decoder → List Bytes → Run (List Bytes)
  | 0, _, _ => .running
  | n + 1, d, acc =>
    if d.token = ch ']' then .done { d with token := 0 } (.ok acc)
    else
      let d := d.trimToStringStart
      if d.buf.length < 43 then .panic
      else
        match dec (d.buf.take 43) with
        | none => .done d (.error .sliceCorrupted)
        | some a =>
          slice32Loop dec n ({ d with buf := d.buf.drop 43 } : Decoder).findEndToken (acc ++ [a])

/-- json/decode.go:414-438 `Decode32ByteArraySliceAsBase64` -/
def Decoder.decode32 (dec : Bytes → Option Bytes) (rounds : Nat) (d : Decoder) : Run (List Bytes) :=
  match indexByte d.buf (ch '[') with
  | none => .done d (.error .sliceCorrupted)
  | some l => slice32Loop dec rounds { d with buf := d.buf.drop (l + 1) } []

/-- json/decode-minified.go:285-296 -/
def minSlice32Loop (dec : Bytes → Option Bytes) : Nat → Decoder → List Bytes → Run (List Bytes)
  | 0, _, _ => .running
  | n + 1, d, acc =>
    match d.buf[1]? with
    | none => .panic
    | some c =>
      if c = ch ']' then .done { d with buf := d.buf.drop 2 } (.ok acc)
      else
        let b := d.buf.drop 2
        if b.length < 43 then .panic
        else
          match dec (b.take 43) with
          | none => .done { d with buf := b } (.error .sliceCorrupted)
          | some a => minSlice32Loop dec n { d with buf := b.drop 43 } (acc ++ [a])

/-- json/decode-minified.go:277-298 `Decode32ByteArraySliceAsBase64` of `DecoderMinified` -/
def Decoder.min32 (dec : Bytes → Option Bytes) (rounds : Nat) (d : Decoder) : Run (List Bytes) :=
  match d.offset 1 with
  | none => .panic
  | some d => minSlice32Loop dec rounds d []

/-! ## Codec (codec.go): the wrapper around an object with a JSON form -/

/-- json/codec.go:16-20 `Codec`; the wrapped object is its state of type `S`, and `toJSON`/`fromJSON`
are the methods of the wrapped object. A nil payload is `none`. -/
structure Codec (S : Type) where
  obj : S
  payload : Option Bytes := none

/-- json/codec.go:54-58 `Unmarshal` of data that is not nil (nil data would leave the payload nil). -/
def Codec.unmarshal {S E} (fromJSON : S → Bytes → S × Option E) (c : Codec S) (data : Bytes) :
    Codec S × Option E :=
  let (o, e) := fromJSON c.obj data
  ({ obj := o, payload := some data }, e)

/-- json/codec.go:64-70 `Marshal`: the error of `ToJSON` is dropped; the payload is kept for later
calls. A nil result of `ToJSON` leaves the payload nil, so `toJSON` answers an optional value. -/
def Codec.marshal {S E} (toJSON : S → Bytes → Option Bytes × Option E) (c : Codec S) :
    Codec S × Option Bytes × Option E :=
  match c.payload with
  | some p => (c, some p, none)
  | none =>
    let r := toJSON c.obj []
    ({ c with payload := r.1 }, r.1, none)

/-- json/codec.go:72-74 `MarshalTo` -/
def Codec.marshalTo {S E} (toJSON : S → Bytes → Option Bytes × Option E) (c : Codec S) (data : Bytes) :
    Option Bytes × Option E := toJSON c.obj data

end Memar.Json
