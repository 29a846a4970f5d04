import Verif.Json.More
import Verif.Net.Socket
import Verif.Buffer.Model
import Verif.Uri.ParseProps

/-!
# Bytes that are handed over and are gone (C298)

json/codec.go:59-62, net/socket-codec.go:59-61, net/stream-codec.go:59-61, net/std/io.go:13, buffer/flat.go:116-123.
-/

namespace Memar.Codec
open Memar

namespace Spec

/-- What a codec owes for the bytes it is given: it reports an error, or the bytes are those it took, in front, and those it hands back; `used` are
the bytes it took. -/
def Accounted (given used remaining : Bytes) (err : Bool) : Prop := err = true ∨ given = used ++ remaining

end Spec

/-- json/codec.go:59-62 `UnmarshalFrom`: the codec, the remaining bytes and whether an error is returned; the body is a comment. -/
def jsonUnmarshalFrom {S : Type} (c : Json.Codec S) (_data : Bytes) : Json.Codec S × Bytes × Bool := (c, [], false)

/-- net/socket-codec.go:59-61 and net/stream-codec.go:59-61 `UnmarshalFrom`: the body is empty. -/
def socketUnmarshalFrom (s : Net.Socket.Sock) (_data : Bytes) : Net.Socket.Sock × Bytes × Bool := (s, [], false)

/-- net/std/io.go:13 `ReadFrom`: the socket, what is left in the reader, the number of bytes and whether an error is returned; nothing is read. -/
def stdReadFrom (s : Net.Socket.Sock) (reader : Bytes) : Net.Socket.Sock × Bytes × Nat × Bool := (s, reader, 0, false)

/-- buffer/flat.go:116-119 `WriteTo`: the buffer, what the writer receives, the number of bytes and whether an error is returned. -/
def flatWriteTo (b : Buffer.Flat) : Buffer.Flat × Bytes × Nat × Bool := (b, [], 0, false)

/-- buffer/flat.go:120-123 `ReadFrom`: the buffer, what is left in the reader, the number of bytes and whether an error is returned. -/
def flatReadFrom (b : Buffer.Flat) (reader : Bytes) : Buffer.Flat × Bytes × Nat × Bool := (b, reader, 0, false)

/-- **C298 violated**: `UnmarshalFrom` of the codec of JSON loses what it is given: the object is not filled, nothing is handed back and no error is
reported, whatever the object and its reader are; so the account of the bytes is settled by no use of a codec that is as it was. -/
theorem C298_json_violated {S E : Type} (c : Json.Codec S) (fromJSON : S → Bytes → S × Option E) (data : Bytes) (hd : data ≠ [])
    (hf : (fromJSON c.obj data).1 ≠ c.obj) :
    (jsonUnmarshalFrom c data).1.obj ≠ (c.unmarshal fromJSON data).1.obj ∧ (jsonUnmarshalFrom c data).1 = c ∧
    ¬ Spec.Accounted data [] (jsonUnmarshalFrom c data).2.1 (jsonUnmarshalFrom c data).2.2 := by
  refine ⟨fun h => hf ?_, rfl, ?_⟩
  · simpa [jsonUnmarshalFrom, Json.Codec.unmarshal] using h.symm
  · rintro (h | h)
    · cases h
    · exact hd h

example := C298_json_violated (⟨0, none⟩ : Json.Codec Nat) (fun _ d => (d.length, (none : Option Unit))) [0x7b#8, 0x7d#8] (by decide) (by decide)

/-- **C298 violated**: so does `UnmarshalFrom` of a socket: nothing is sent, nothing is handed back and no error is reported. -/
theorem C298_socket_violated (s : Net.Socket.Sock) (data : Bytes) (hd : data ≠ []) :
    (socketUnmarshalFrom s data).1 = s ∧ ¬ Spec.Accounted data [] (socketUnmarshalFrom s data).2.1 (socketUnmarshalFrom s data).2.2 := by
  refine ⟨rfl, ?_⟩
  rintro (h | h)
  · cases h
  · exact hd h

example := C298_socket_violated Net.Socket.Sock.zero [1#8, 2#8] (by decide)

/-- **C298 violated**: copying stops without an error although bytes are left: a socket of the standard library and a buffer take nothing from a
reader that has something to give, and a buffer gives nothing to a writer although it has unread bytes; all say that the copy went well. -/
theorem C298_copy_violated (s : Net.Socket.Sock) (b : Buffer.Flat) (reader : Bytes) (hr : reader ≠ []) (hb : 0 < Buffer.lenOfUnread b) :
    ((stdReadFrom s reader).2.1 ≠ [] ∧ (stdReadFrom s reader).2.2 = (0, false)) ∧
    ((flatReadFrom b reader).2.1 ≠ [] ∧ (flatReadFrom b reader).2.2 = (0, false) ∧ (flatReadFrom b reader).1 = b) ∧
    (0 < Buffer.lenOfUnread (flatWriteTo b).1 ∧ (flatWriteTo b).2 = ([], 0, false)) := ⟨⟨hr, rfl⟩, ⟨hr, rfl, rfl⟩, hb, rfl⟩

example := C298_copy_violated Net.Socket.Sock.zero ⟨some ⟨[1#8, 2#8, 3#8, 9#8], 3⟩, 1⟩ [5#8] (by decide) (by decide)

/-- **C298** the part that holds: the reader of the target of a request accounts for every byte: what it took and what it hands back are the bytes it was
given, and what it took is kept in the URI. Missing: the codec of JSON, sockets and buffers (refuted: `C298_json_violated`,
`C298_socket_violated`, `C298_copy_violated`). -/
theorem C298_uri_partial (u u' : Uri.URI) (data rest : Bytes) (h : u.unmarshalFrom data = some (u', rest)) :
    Spec.Accounted data u'.uri rest false := by
  exact Or.inr (Uri.C97_nothing_lost u u' data rest h).1.symm

example := C298_uri_partial Uri.fresh _ (bs "https://a.b/x?q HTTP/1.1") _
  (Option.some_get (show (Uri.fresh.unmarshalFrom (bs "https://a.b/x?q HTTP/1.1")).isSome by decide +kernel)).symm

end Memar.Codec
