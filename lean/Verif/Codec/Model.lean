import Verif.Net.Field

/-!
# Model of handing one codec to another: `Encode` and `Decode` of all codecs of the code

`source.Encode(destination)` and `destination.Decode(source)` are the two ways to put the contents of one codec into
another.  Most codecs write one of them by calling the other one of the other codec.  The calls are followed here with
fuel: `running` is a call that has not returned after that many nested calls.
-/

namespace Memar.Codec
open Memar

/-- The codecs: `net.Socket` (net/socket-codec.go, net/stream-codec.go), `json.Codec` (json/codec.go), `uri.URI`
(net/uri/uri.go), `chapar.Path` (net/chapar/path.go), the codecs that cannot be changed (`gzip.Compressor`,
`flate.Compressor`, `flate.Decompressor`), and `gzip.Decompressor`. -/
inductive Leaf
  | socket | json | uri | path | readOnly | gunzip
deriving DecidableEq, Repr

/-- A codec with what its `Marshal` returns (`none` is an error), or the body of an HTTP message around another codec
(net/http/body.go), which may be empty. -/
inductive Codec
  | leaf (k : Leaf) (data : Option Bytes)
  | empty
  | body (c : Codec)
deriving Repr

/-- How a call ends. -/
inductive Outcome
  /-- not within the given number of nested calls -/
  | running
  /-- a panic -/
  | panic
  /-- without an error; nothing was handed over -/
  | nothing
  /-- with the error of a codec that cannot be changed -/
  | refused
  /-- with the error of the source's `Marshal` -/
  | failed
  /-- the destination was handed these bytes to read; the error is what reading them gives -/
  | given (b : Bytes)
deriving DecidableEq, Repr

/-- `Marshal`: what the codec holds; net/http/body.go:58-63 for a body. -/
def marshal : Codec → Option Bytes
  | .leaf _ d => d
  | .empty => some []
  | .body c => marshal c

/-- `Unmarshal`: net/socket-codec.go:42-58 (`sendPayload` sends nothing and reports no error, net/socket-codec.go:87-89, so
that a socket whose `Check` passes never gets to the end of data), json/codec.go:54-58, net/uri/uri.go:113-118 (an empty
text is read out of range), net/chapar/path.go:72-81 (an empty path is ignored; the bytes a path keeps of a longer one are
in `Verif.Chapar`), compress/gzip/compressor.go:71-74, compress/flate/compressor.go:71-74,
compress/flate/decompressor.go:74-77, compress/gzip/decompressor.go:83-91, net/http/body.go:70-75. -/
def unmarshal : Codec → Bytes → Outcome
  | .leaf .socket _, b => if b = [] then .given [] else .running
  | .leaf .json _, b => .given b
  | .leaf .uri _, b => if b = [] then .panic else .given b
  | .leaf .path _, b => if b = [] then .nothing else .given b
  | .leaf .readOnly _, _ => .refused
  | .leaf .gunzip _, b => .given b
  | .empty, _ => .nothing
  | .body c, b => unmarshal c b

mutual
/-- `source.Encode(destination)`: net/socket-codec.go:15-17, net/stream-codec.go:15-17, json/codec.go:47-50,
net/uri/uri.go:89-93 (`URI.Marshal` has no error), net/chapar/path.go:68-71, compress/gzip/compressor.go:53-56,
compress/gzip/decompressor.go:65-68, compress/flate/compressor.go:53-56, compress/flate/decompressor.go:56-59,
net/http/body.go:52-57. -/
def encode : Nat → Codec → Codec → Outcome
  | 0, _, _ => .running
  | fuel + 1, src, dst =>
    match src with
    | .leaf .uri d => unmarshal dst (d.getD [])
    | .leaf .path _ => .nothing
    | .leaf _ _ => decode fuel dst src
    | .empty => .nothing
    | .body c => encode fuel c dst

/-- `destination.Decode(source)`: net/socket-codec.go:12-14, net/stream-codec.go:12-14, json/codec.go:37-44,
net/uri/uri.go:84-87, net/chapar/path.go:64-67, compress/gzip/compressor.go:49-52, compress/gzip/decompressor.go:61-64,
compress/flate/compressor.go:49-52, compress/flate/decompressor.go:52-55, net/http/body.go:46-51. -/
def decode : Nat → Codec → Codec → Outcome
  | 0, _, _ => .running
  | fuel + 1, dst, src =>
    match dst with
    | .leaf .socket _ => encode fuel src dst
    | .leaf .json _ =>
      match marshal src with
      | none => .failed
      | some b => .given b
    | .leaf .uri _ => .nothing
    | .leaf .path _ => .nothing
    | .leaf .readOnly _ => .refused
    | .leaf .gunzip _ => .refused
    | .empty => .nothing
    | .body c => decode fuel c src
end

end Memar.Codec
