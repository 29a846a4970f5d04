import Verif.Json.Model

/-!
# Model of the JSON codec over other codecs, readers and writers, and of base64 arrays

`base64.RawStdEncoding.Decode` is a parameter that answers the bytes it produces and whether the text was
correct; writing more bytes than the array has panics.
-/

namespace Memar.Json

/-- json/codec.go:37-44 `Decode`; `source` is what `source.Marshal()` answers (nil is `none`). The count is never
set. -/
def Codec.decode {S E} (fromJSON : S → Bytes → S × Option E) (c : Codec S) (source : Option Bytes × Option E) :
    Codec S × Nat × Option E :=
  let c := { c with payload := source.1 }
  match source.2 with
  | some e => (c, 0, some e)
  | none =>
    let (o, e) := fromJSON c.obj (source.1.getD [])
    ({ c with obj := o }, 0, e)

/-- json/codec.go:47-50 `Encode`; `decodeOf` is the destination's `Decode` of this codec. -/
def Codec.encode {S E} (decodeOf : Codec S → Nat × Option E) (c : Codec S) : Nat × Option E := decodeOf c

/-- json/codec.go:77-86 `ReadFrom` with buffer/flat.go:120-123, which reads nothing from the reader, so the
contents of the buffer stay nil. -/
def Codec.readFrom {S E} (fromJSON : S → Bytes → S × Option E) (c : Codec S) (_reader : Bytes) :
    Codec S × Nat × Option E :=
  let (o, e) := fromJSON c.obj []
  ({ obj := o, payload := none }, 0, e)

/-- json/codec.go:88-94 `WriteTo`; `write` is `writer.Write`. -/
def Codec.writeTo {S E} (toJSON : S → Bytes → Option Bytes × Option E) (write : Bytes → Nat × Option E) (c : Codec S) :
    Codec S × Nat × Option E :=
  let c := match c.payload with
    | none => (c.marshal toJSON).1
    | some _ => c
  let (n, e) := write (c.payload.getD [])
  (c, n, e)

/-- The first `k` bytes set to zero. -/
def zeroFirst (k : Nat) (l : Bytes) : Bytes := List.replicate (min k l.length) 0#8 ++ l.drop k

/-- Decoding into an array of fixed length (`Decode` of `base64.RawStdEncoding`, standard library): the bytes written replace the front of it;
`dec` answers the bytes read and whether the whole text was good, and more bytes than the array has room for panic. The library writes groups
of eight and of four bytes for six and three, and so sets some bytes behind those it read to zero when the array has room for them: `over text
n` is how many in an array of length `n`. -/
def intoArray (dec : Bytes → Bytes × Bool) (over : Bytes → Nat → Nat) (array text : Bytes) : Option (Bytes × Bool) :=
  let r := dec text
  if r.1.length ≤ array.length then some (r.1 ++ zeroFirst (over text array.length) (array.drop r.1.length), r.2) else none

/-- json/decode.go:267-287 `DecodeByteArrayAsBase64`: the decoder, the array and the error. -/
def Decoder.decodeArray64 (dec : Bytes → Bytes × Bool) (over : Bytes → Nat → Nat) (d : Decoder) (array : Bytes) :
    Option (Decoder × Bytes × Option Err) :=
  match d.checkNullValue with
  | none => none
  | some true => some (d, array, none)
  | some false =>
    let d := d.trimToStringStart
    match indexByte d.buf (ch '"') with
    | none => some (d, array, some .arrayCorrupted)
    | some loc =>
      match intoArray dec over array (d.buf.take loc) with
      | none => none
      | some (a, true) => some (d.findEndToken, a, none)
      | some (a, false) => some (d, a, some .arrayCorrupted)

/-- json/decode-minified.go:138-155 `DecodeByteArrayAsBase64` of `DecoderMinified`. -/
def Decoder.minArray64 (dec : Bytes → Bytes × Bool) (over : Bytes → Nat → Nat) (d : Decoder) (array : Bytes) :
    Option (Decoder × Bytes × Option Err) :=
  match d.offset 1 with
  | none => none
  | some d =>
    match indexByte d.buf (ch '"') with
    | none => some (d, array, some .arrayCorrupted)
    | some loc =>
      match intoArray dec over array (d.buf.take loc) with
      | none => none
      | some (a, true) => (d.offset (loc + 1)).map fun d => (d, a, none)
      | some (a, false) => some (d, a, some .arrayCorrupted)

/-- json/decode.go:231-240 `DecodeFloat64AsNumber`; `p` is `strconv.ParseFloat(_, 64)`. -/
def Decoder.decodeFloat {F : Type} (p : Bytes → Option F) (d : Decoder) : Decoder × Except Err F :=
  let d := d.trimToDigit.findEndToken
  match p d.lastItem with
  | some v => (d, .ok v)
  | none => (d, .error .integerCorrupted)

/-- json/decode-minified.go:109-117 `DecodeFloat64AsNumber` of `DecoderMinified`. -/
def Decoder.minFloat {F : Type} (p : Bytes → Option F) (d : Decoder) : Decoder × Except Err F :=
  let d := d.findEndToken
  match p d.lastItem with
  | some v => (d, .ok v)
  | none => (d, .error .stringCorrupted)

/-- json/decode.go:115-121 `CheckToken` -/
def Decoder.checkToken (d : Decoder) (t : Byte) : Decoder × Bool :=
  if d.token = t then ({ d with token := 0 }, true) else (d, false)

end Memar.Json
