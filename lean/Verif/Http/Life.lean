import Verif.Http.Exchange

/-!
# Model of the life cycle of HTTP messages

A request or response is made, filled, read, reset and filled again.  `Init`, `Reinit` and `Deinit` of
the parts return no error, so the early returns between them are not taken.  The codec of a body is a
parameter: what it answers to each call is data.
-/

namespace Memar.Http

/-- net/http/request.go:11-15 and net/http/request-pseudo_header.go:10-14; `none` is a body without codec -/
structure ReqMsg (C : Type) where
  method : Bytes := []
  uri : Uri.URI := {}
  version : Bytes := []
  header : Header := ⟨[]⟩
  body : Option C := none

/-- net/http/response.go:15-19 and net/http/response-pseudo_header.go:9-13 -/
structure ResMsg (C : Type) where
  version : Bytes := []
  statusCode : Bytes := []
  reasonPhrase : Bytes := []
  header : Header := ⟨[]⟩
  body : Option C := none

variable {C : Type}

/-- net/http/request.go:18-29 `Init` with net/http/request-pseudo_header.go:17-20, net/http/header.go:23-26, net/http/body.go:18 -/
def ReqMsg.init (r : ReqMsg C) : ReqMsg C := { r with header := Header.init }

/-- net/http/request.go:30-41 `Reinit` with net/http/request-pseudo_header.go:21-26, net/http/header.go:27-32, net/http/body.go:19 -/
def ReqMsg.reinit (r : ReqMsg C) : ReqMsg C :=
  ⟨[], r.uri.reinit, [], r.header.reinit, none⟩

/-- net/http/request.go:42-53 `Deinit` with net/uri/uri.go:47-49, net/http/header.go:33-35, net/http/body.go:20: nothing changes -/
def ReqMsg.deinit (r : ReqMsg C) : ReqMsg C := r

/-- net/http/response.go:22-33 `Init` -/
def ResMsg.init (r : ResMsg C) : ResMsg C := { r with header := Header.init }

/-- net/http/response.go:34-45 `Reinit` with net/http/response-pseudo_header.go:19-24 -/
def ResMsg.reinit (r : ResMsg C) : ResMsg C := ⟨[], [], [], r.header.reinit, none⟩

/-- net/http/response.go:46-57 `Deinit` -/
def ResMsg.deinit (r : ResMsg C) : ResMsg C := r

/-- What a user does with a request: `SetMethod`, `SetVersion` (net/http/request-pseudo_header.go:36-37),
`U.Set` (net/uri/uri.go:51-53), `Header_Add`, `SetBody` (net/http/body.go:23), `U.Marshal`, `Reinit` and `Deinit`. -/
inductive ReqOp (C : Type) where
  | setMethod (m : Bytes)
  | setVersion (v : Bytes)
  | setURI (scheme authority path query fragment : Bytes)
  | add (key value : Bytes)
  | setBody (c : Option C)
  | writeURI
  | reinit
  | deinit

/-- One call on a request (see `ReqOp`). -/
def ReqMsg.step (r : ReqMsg C) : ReqOp C → ReqMsg C
  | .setMethod m => { r with method := m }
  | .setVersion v => { r with version := v }
  | .setURI s a p q f => { r with uri := r.uri.set s a p q f }
  | .add k v => { r with header := r.header.add k v }
  | .setBody c => { r with body := c }
  | .writeURI => { r with uri := r.uri.marshal.2 }
  | .reinit => r.reinit
  | .deinit => r.deinit

/-- A new request, initialised and used. -/
def ReqMsg.run (ops : List (ReqOp C)) : ReqMsg C := ops.foldl ReqMsg.step (ReqMsg.init {})

/-- What a user does with a response: `SetVersion`, `SetStatus` (net/http/response-pseudo_header.go:33-37),
`Header_Add`, `SetBody`, `Reinit` and `Deinit`. -/
inductive ResOp (C : Type) where
  | setVersion (v : Bytes)
  | setStatus (code phrase : Bytes)
  | add (key value : Bytes)
  | setBody (c : Option C)
  | reinit
  | deinit

/-- One call on a response (see `ResOp`). -/
def ResMsg.step (r : ResMsg C) : ResOp C → ResMsg C
  | .setVersion v => { r with version := v }
  | .setStatus c p => { r with statusCode := c, reasonPhrase := p }
  | .add k v => { r with header := r.header.add k v }
  | .setBody c => { r with body := c }
  | .reinit => r.reinit
  | .deinit => r.deinit

/-- A new response, initialised and used. -/
def ResMsg.run (ops : List (ResOp C)) : ResMsg C := ops.foldl ResMsg.step (ResMsg.init {})

/-! ## The body as a codec -/

/-- What a codec answers: counts, bytes and errors of the calls of `protocol.Codec`. -/
structure CodecCalls (S E : Type) where
  decode : S → Nat × Option E
  encode : S → Nat × Option E
  marshal : Bytes × Option E
  marshalTo : Bytes → Bytes × Option E
  unmarshal : Bytes → Nat × Option E
  unmarshalFrom : Bytes → Bytes × Option E

variable {S E : Type}

/-- net/http/body.go:46-51 `Decode` -/
def bodyDecode (b : Option (CodecCalls S E)) (source : S) : Nat × Option E :=
  match b with
  | some c => c.decode source
  | none => (0, none)
/-- net/http/body.go:52-57 `Encode` -/
def bodyEncode (b : Option (CodecCalls S E)) (destination : S) : Nat × Option E :=
  match b with
  | some c => c.encode destination
  | none => (0, none)
/-- net/http/body.go:58-63 `Marshal`; the nil slice is the empty list -/
def bodyMarshal (b : Option (CodecCalls S E)) : Bytes × Option E :=
  match b with
  | some c => c.marshal
  | none => ([], none)
/-- net/http/body.go:64-69 `MarshalTo` -/
def bodyMarshalTo (b : Option (CodecCalls S E)) (data : Bytes) : Bytes × Option E :=
  match b with
  | some c => c.marshalTo data
  | none => (data, none)
/-- net/http/body.go:70-75 `Unmarshal` -/
def bodyUnmarshal (b : Option (CodecCalls S E)) (data : Bytes) : Nat × Option E :=
  match b with
  | some c => c.unmarshal data
  | none => (0, none)
/-- net/http/body.go:76-81 `UnmarshalFrom` -/
def bodyUnmarshalFrom (b : Option (CodecCalls S E)) (data : Bytes) : Bytes × Option E :=
  match b with
  | some c => c.unmarshalFrom data
  | none => ([], none)

end Memar.Http
