import Verif.Shared.TextLemmas
import Verif.Net.Extension
import Verif.Net.TcpModel
import Verif.Syllab.Props

/-!
# Messages in buffers that are larger than the message, C287

`Verif.Base` says that re-slicing a slice past its length panics. Go allows `s[i:j]` up to the capacity: when a message lies in a receive
buffer and more bytes stand behind it, as in `buf[:n]` after a read of `n` bytes, a length field of the message may reach into them. Here the
getters with such an upper bound are given a slice of the memory instead of the bytes it shows. Header fields are read by index,
which Go bounds by the length, so they are the functions of the byte models.
-/

namespace Memar.Shared
open Memar Memar.Convert

/-- Go `s[i:j]` of a byte slice: bounded by the capacity, not by the length. -/
def reslice (s : SliceHeader) (i j : Nat) : Option SliceHeader :=
  if i ≤ j ∧ j ≤ s.cap then some ⟨s.data + i, j - i, s.cap - i⟩ else none

/-- net/tcp/segment.go:39 `Options` -/
def tcpOptionsAt (h : Heap) (s : SliceHeader) : Option SliceHeader :=
  (Net.Tcp.dataOffset (bytesOf h s)).bind fun (d : U8) => reslice s 20 d.toNat

/-- net/srpc/frame-call-service.go:29 `Payload` -/
def callPayloadAt (h : Heap) (f : SliceHeader) : Option SliceHeader :=
  (Net.Frames.length16le (bytesOf h f)).bind fun (n : U16) => reslice f 26 n.toNat

/-- net/sec/frame-padding.go:18 `Payload` -/
def paddingPayloadAt (h : Heap) (f : SliceHeader) : Option SliceHeader :=
  (Net.Frames.length16be (bytesOf h f)).bind fun (n : U16) => reslice f 2 n.toNat

/-- net/l4/frame-data.go:23 `Payload` -/
def dataPayloadAt (h : Heap) (f : SliceHeader) : Option SliceHeader :=
  (Net.Frames.length16be (bytesOf h f)).bind fun (n : U16) => reslice f 18 n.toNat

/-- net/ipv6/extension-routing.go:23 `Optional` -/
def routingOptionalAt (h : Heap) (er : SliceHeader) : Option SliceHeader :=
  (Net.Extension.length (bytesOf h er)).bind fun (l : Byte) => reslice er 8 l.toNat

/-- syllab/decode-unsafe.go:29-33 `UnsafeGetByteArray`; 22-26 `UnsafeGetString` and 36-47 make a string, an `[]int8` and a `[]bool` of the same bytes. -/
def unsafeBytesAt (h : Heap) (p : SliceHeader) (stackIndex : U32) : Option SliceHeader :=
  (Syllab.getUInt32 (bytesOf h p) stackIndex).bind fun (add : U32) =>
    (Syllab.getUInt32 (bytesOf h p) (stackIndex + 4)).bind fun (ln : U32) => reslice p add.toNat (add + ln).toNat

/-- syllab/decode-unsafe.go:50-117: the bytes the slice of words of `sz` bytes is made of. -/
def unsafeWordsAt (sz : Nat) (h : Heap) (p : SliceHeader) (stackIndex : U32) : Option SliceHeader :=
  (Syllab.getUInt32 (bytesOf h p) stackIndex).bind fun (add : U32) =>
    (Syllab.getUInt32 (bytesOf h p) (stackIndex + 4)).bind fun (ln : U32) => reslice p add.toNat (add + ln * BitVec.ofNat 32 sz).toNat

/-- The loop of syllab/decode-safe.go:234-239 and syllab/decode-unsafe.go:131-136: the slices of the buffer the strings are made of. -/
def stringsLoopAt (h : Heap) (p : SliceHeader) : Nat → U32 → Option (List SliceHeader)
  | 0, _ => some []
  | k + 1, add =>
    (Syllab.getUInt32 (bytesOf h p) add).bind fun (eachAdd : U32) =>
      (Syllab.getUInt32 (bytesOf h p) (add + 4)).bind fun (eachLn : U32) =>
        (reslice p eachAdd.toNat (eachAdd + eachLn).toNat).bind fun s => (stringsLoopAt h p k (add + 8)).map fun r => s :: r

/-- syllab/decode-safe.go:229-241 `GetStringArray`, which copies the texts, and syllab/decode-unsafe.go:126-138 `UnsafeGetStringArray`, which does
not: the slices the strings are made of. -/
def stringArrayAt (h : Heap) (p : SliceHeader) (stackIndex : U32) : Option (List SliceHeader) :=
  (Syllab.getUInt32 (bytesOf h p) stackIndex).bind fun (add : U32) =>
    (Syllab.getUInt32 (bytesOf h p) (stackIndex + 4)).bind fun (ln : U32) => stringsLoopAt h p ln.toNat add

/-- The loop of json/decode.go:94-106 from position `i` on: `d.buf[i:i+4]` may reach behind the document. -/
def checkNullAt (h : Heap) (b : SliceHeader) (i : Nat) (null : Bool) : Bytes → Option Bool
  | [] => some null
  | c :: r =>
    if c = ch 'n' then
      (reslice b i (i + 4)).bind fun s => checkNullAt h b (i + 1) (null || (bytesOf h s == bs "null")) r
    else if c = ch '"' then some false
    else if c = ch ',' then some null
    else checkNullAt h b (i + 1) null r

/-- json/decode.go:93-107 `CheckNullValue` -/
def nullValueAt (h : Heap) (b : SliceHeader) : Option Bool := checkNullAt h b 0 false (bytesOf h b)

/-- json/decode.go:428-434 and json/decode-minified.go:287-293, one item of the arrays of 32 bytes: `d.buf[:43]` may reach behind the document, while
`d.buf[43:]` panics on a document that is shorter. `none` is a panic, `some none` the error; else the item and the document that remains.
`dec` is `base64.RawStdEncoding.Decode`. -/
def item32At (dec : Bytes → Option Bytes) (h : Heap) (b : SliceHeader) : Option (Option (Bytes × SliceHeader)) :=
  (reslice b 0 43).bind fun s =>
    match dec (bytesOf h s) with
    | none => some none
    | some a => if 43 ≤ b.len then some (some (a, sFrom b 43)) else none

/-! ## The getters together -/

/-- The getters that answer a part of the message. -/
inductive Getter
  | tcpOptions
  | callPayload
  | paddingPayload
  | dataPayload
  | routingOptional
  | syllabBytes (stackIndex : U32)
  | syllabWords (sz : Nat) (stackIndex : U32)
deriving DecidableEq, Repr

/-- The getter on a message in memory. -/
def Getter.run (h : Heap) (p : SliceHeader) : Getter → Option SliceHeader
  | .tcpOptions => tcpOptionsAt h p
  | .callPayload => callPayloadAt h p
  | .paddingPayload => paddingPayloadAt h p
  | .dataPayload => dataPayloadAt h p
  | .routingOptional => routingOptionalAt h p
  | .syllabBytes i => unsafeBytesAt h p i
  | .syllabWords sz i => unsafeWordsAt sz h p i

/-- The getter of the byte models, where re-slicing past the length panics. -/
def Getter.own (b : Bytes) : Getter → Option Bytes
  | .tcpOptions => Net.Tcp.options b
  | .callPayload => Net.Frames.callPayload b
  | .paddingPayload => Net.Frames.paddingPayload b
  | .dataPayload => Net.Frames.dataPayload b
  | .routingOptional => Net.Extension.optional b
  | .syllabBytes i => Syllab.unsafeGetByteArray b i
  | .syllabWords sz i => (Syllab.getUInt32 b i).bind fun (add : U32) =>
      (Syllab.getUInt32 b (i + 4)).bind fun (ln : U32) => slice b add.toNat (add + ln * BitVec.ofNat 32 sz).toNat

/-- Specification: where the wanted part begins and ends according to the fields of the message, in bytes from its beginning; `none` when
the message is too short to have the fields. -/
def Spec.bounds (b : Bytes) : Getter → Option (Nat × Nat)
  | .tcpOptions => if 13 ≤ b.length then some (20, 4 * ((b.getD 12 0).toNat / 16)) else none
  | .callPayload => if 2 ≤ b.length then some (26, Binary.Spec.leVal (b.take 2)) else none
  | .paddingPayload => if 2 ≤ b.length then some (2, Binary.Spec.beVal (b.take 2)) else none
  | .dataPayload => if 2 ≤ b.length then some (18, Binary.Spec.beVal (b.take 2)) else none
  | .routingOptional => if 2 ≤ b.length then some (8, (b.getD 1 0).toNat) else none
  | .syllabBytes i =>
    if i.toNat + 8 ≤ b.length then
      some (Binary.Spec.leVal ((b.drop i.toNat).take 4),
        (Binary.Spec.leVal ((b.drop i.toNat).take 4) + Binary.Spec.leVal ((b.drop (i.toNat + 4)).take 4)) % 4294967296)
    else none
  | .syllabWords sz i =>
    if i.toNat + 8 ≤ b.length then
      some (Binary.Spec.leVal ((b.drop i.toNat).take 4),
        (Binary.Spec.leVal ((b.drop i.toNat).take 4) + Binary.Spec.leVal ((b.drop (i.toNat + 4)).take 4) * sz) % 4294967296)
    else none

end Memar.Shared
