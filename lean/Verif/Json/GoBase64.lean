import Verif.Json.Stream
import Verif.Identifier.GoBase64Props

/-!
# `base64.RawStdEncoding` of the standard library, as the JSON decoders use it

The encoding differs from `base64.RawURLEncoding` (`Verif/Identifier/GoBase64.lean`) only in the characters for 62 and 63.
-/

namespace Memar.Json.Std64
open Memar Memar.Json

/-- The character of `base64.RawURLEncoding` with the same value; characters that only that encoding has become a character that has no value. -/
def toUrl (c : Byte) : Byte :=
  if c = ch '+' then ch '-' else if c = ch '/' then ch '_' else if c = ch '-' ∨ c = ch '_' then 0#8 else c

/-- The character of `base64.RawStdEncoding` with the same value. -/
def toStd (c : Byte) : Byte := if c = ch '-' then ch '+' else if c = ch '_' then ch '/' else c

/-- `Encode` (json/encode.go:167-205) -/
def encode (b : Bytes) : Bytes := (Identifier.Go64.encode b).map toStd

/-- `Decode` (json/decode.go:280,403,428, json/decode-minified.go:148,265,287): the bytes written and whether there was no error. -/
def decode (s : Bytes) : Bytes × Bool := Identifier.Go64.decode [] (s.map toUrl)

/-- `Decode` where only the result of a good text is used. -/
def decodeGood (s : Bytes) : Option Bytes := if (decode s).2 then some (decode s).1 else none

/-- json/decode.go:425-436: the loop of `Decode32ByteArraySliceAsBase64`. One array takes the bytes of all items: an item of 43 characters that
holds fewer than 32 bytes leaves the others as they were. `dec` and `over` are as in `intoArray`. -/
def into32Loop (dec : Bytes → Bytes × Bool) (over : Bytes → Nat → Nat) : Nat → Decoder → Bytes → List Bytes → Run (List Bytes)
  | 0, _, _, _ => .running
  | n + 1, d, array, acc =>
    if d.token = ch ']' then .done { d with token := 0 } (.ok acc)
    else
      let d := d.trimToStringStart
      if d.buf.length < 43 then .panic
      else
        match intoArray dec over array (d.buf.take 43) with
        | none => .panic
        | some (_, false) => .done d (.error .sliceCorrupted)
        | some (a, true) => into32Loop dec over n ({ d with buf := d.buf.drop 43 } : Decoder).findEndToken a (acc ++ [a])

/-- json/decode.go:414-438 `Decode32ByteArraySliceAsBase64`; the array is zero at first (line 425). -/
def decode32 (dec : Bytes → Bytes × Bool) (over : Bytes → Nat → Nat) (rounds : Nat) (d : Decoder) : Run (List Bytes) :=
  match indexByte d.buf (ch '[') with
  | none => .done d (.error .sliceCorrupted)
  | some l => into32Loop dec over rounds { d with buf := d.buf.drop (l + 1) } (List.replicate 32 0#8) []

end Memar.Json.Std64
