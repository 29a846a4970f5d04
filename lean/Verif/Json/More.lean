import Verif.Json.Stream

/-!
# Model of the remaining functions of package json: numbers as base64, floating point numbers, the runtime functions
and the length a codec tells

The memory of a slice of numbers is read byte by byte (`convert.UnsafeUInt16SliceToByteSlice`,
`convert.UnsafeUInt32SliceToByteSlice`), so its content depends on the byte order of the processor, which is a
parameter. `strconv.AppendFloat` and the package encoding/json are parameters.
-/

namespace Memar.Json

/-- The memory of one number of `k` bytes on a little endian processor (convert/integer-slice-unsafe.go:31-38, 51-58 show the
memory as bytes; the order is the processor's). -/
def littleBytes : Nat → Nat → Bytes
  | 0, _ => []
  | k + 1, n => BitVec.ofNat 8 n :: littleBytes k (n / 256)

/-- The memory of a slice of numbers of `k` bytes as convert/integer-slice-unsafe.go:31-38 (`k` = 2) and 51-58 (`k` = 4) show it;
`little` tells the processor. -/
def memory (little : Bool) (k : Nat) (s : List Nat) : Bytes :=
  s.flatMap fun (n : Nat) => if little then littleBytes k n else (littleBytes k n).reverse

/-- json/encode.go:179-184 `EncodeUInt16SliceAsBase64` -/
def encodeUInt16Base64 (little : Bool) (enc : Bytes → Bytes) (buf : Bytes) (cap : Nat) (s : List U16) : Option Bytes :=
  encodeBase64 enc buf cap (memory little 2 (s.map (·.toNat)))

/-- json/encode.go:187-192 `EncodeUInt32SliceAsBase64` -/
def encodeUInt32Base64 (little : Bool) (enc : Bytes → Bytes) (buf : Bytes) (cap : Nat) (s : List U32) : Option Bytes :=
  encodeBase64 enc buf cap (memory little 4 (s.map (·.toNat)))

/-- json/encode.go:90-92 `EncodeFloat32` and 95-97 `EncodeFloat64`; `format` is `strconv.AppendFloat(_, f, 'g', -1, bits)`. -/
def encodeFloat {F : Type} (format : F → Bytes) (buf : Bytes) (f : F) : Bytes := buf ++ format f

/-- json/codec-runtime.go:35-43 `Marshal`; `std` is `json.Marshal`. A nil slice is `none`. -/
def marshalRuntime {S : Type} (std : S → Option Bytes × Bool) (s : S) : Option Bytes × Bool :=
  match std s with
  | (_, true) => (none, true)
  | (p, false) => (p, false)

/-- json/codec-runtime.go:46-53 `Unmarshal`; `std` is `json.Unmarshal`, which answers what the object has become and whether
there was an error. The error is always `ErrEncodedCorrupted`. -/
def unmarshalRuntime {S : Type} (std : Bytes → S → S × Bool) (p : Bytes) (s : S) : S × Bool := std p s

/-- json/codec.go:10-13 `NewCodec` and json/codec.go:23-26 `Init`: the length is asked for once. The pair is the codec and the field `len`. -/
def initCodec {S : Type} (lenAsJSON : S → Nat) (o : S) : Codec S × Nat := ({ obj := o }, lenAsJSON o)

/-- The calls on a codec that was initialised: json/codec.go:37-44 `Decode`, json/codec.go:54-58 `Unmarshal`, json/codec.go:64-70 `Marshal`, and a change
of the object by the program. -/
inductive Call (S : Type)
  | decode (source : Option Bytes × Option Unit)
  | unmarshal (data : Bytes)
  | marshal
  | change (o : S)

/-- One call; none of them writes the field `len`. -/
def Call.run {S : Type} (fromJSON : S → Bytes → S × Option Unit) (toJSON : S → Bytes → Option Bytes × Option Unit) :
    Call S → Codec S × Nat → Codec S × Nat
  | .decode src, (c, n) => ((c.decode fromJSON src).1, n)
  | .unmarshal d, (c, n) => ((c.unmarshal fromJSON d).1, n)
  | .marshal, (c, n) => ((c.marshal toJSON).1, n)
  | .change o, (c, n) => ({ c with obj := o }, n)

/-- json/codec.go:51 `Len` -/
def codecLen {S : Type} (c : Codec S × Nat) : Nat := c.2

/-- json/decode.go:110-112 `ResetToken` -/
def Decoder.resetToken (d : Decoder) : Decoder := { d with token := 0 }

end Memar.Json
