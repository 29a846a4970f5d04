import Verif.Http.Services
import Verif.Http.Cookie
import Verif.Strconv
import Verif.Base64
import Verif.Registry.Model
import Verif.Uri.Model
import Verif.Binary.Model

/-!
# Package `net/http`: status, error and body of a response, Set-Cookie attributes, the sending side

The v1 handler is written against older names of the same package (`H.Set`, `SetContentLength`,
`SetTransferEncoding`); they are modelled as `Header_Set`, `AddContentLength` and `AddTransferEncoding`.
-/

namespace Memar.Http
open Memar Memar.Decimal

/-! ## Set-Cookie attributes -/

/-- Go `strconv.Atoi(s)` on a 64-bit platform: an optional sign and decimal digits, in range. -/
def atoi (s : Bytes) : Option Int :=
  let num (t : Bytes) : Option Nat := if t = [] ∨ ¬ AllDigits t then none else some (decVal t)
  let signed : Option Int :=
    match s with
    | [] => none
    | c :: t =>
      if c = ch '-' then (num t).map fun (n : Nat) => -(n : Int)
      else if c = ch '+' then (num t).map fun (n : Nat) => (n : Int)
      else (num s).map fun (n : Nat) => (n : Int)
  signed.bind fun v => if -9223372036854775808 ≤ v ∧ v ≤ 9223372036854775807 then some v else none

/-- net/http/header-set-cookie.go:110-117 `GetMaxAge` -/
def SetCookie.getMaxAge (sc : SetCookie) : Int := (atoi sc.maxAge).getD 0

/-- net/http/header-set-cookie.go:120-126 `SetMaxAge` -/
def SetCookie.setMaxAge (sc : SetCookie) (maxAge : Int) : SetCookie :=
  if maxAge > 0 then { sc with maxAge := decDigits maxAge.toNat }
  else { sc with maxAge := bs "0" }

/-- net/http/header-set-cookie.go:148-161 `GetSameSite`; the modes 1 to 4 are lines 134-145 -/
def SetCookie.getSameSite (toLower : Bytes → Bytes) (sc : SetCookie) : Int :=
  let lowerVal := toLower sc.sameSite
  if lowerVal = bs "lax" then 2
  else if lowerVal = bs "strict" then 3
  else if lowerVal = bs "none" then 4
  else 1

/-- net/http/header-set-cookie.go:164-176 `SetSameSite` -/
def SetCookie.setSameSite (sc : SetCookie) (mode : Int) : SetCookie :=
  if mode = 1 then { sc with sameSite := bs " " }
  else if mode = 2 then { sc with sameSite := bs "Lax" }
  else if mode = 3 then { sc with sameSite := bs "Strict" }
  else if mode = 4 then { sc with sameSite := bs "none" }
  else sc

/-- net/http/header-set-cookie.go:24-29 `AddSetCookie` -/
def Header.addSetCookie (h : Header) : List SetCookie → Header
  | [] => h
  | sc :: rest => (h.add (bs "Set-Cookie") sc.marshal).addSetCookie rest

/-! ## Status -/

/-- A row of the constants of net/http/const.go:184-369: number, code text, phrase. -/
structure StatusRow where
  number : Nat
  code : Bytes
  phrase : Bytes

/-- net/http/const.go:184-436: the constants; `statusText` has one entry for each of them. -/
def statusTable : List StatusRow := [
  ⟨100, bs "100", bs "Continue"⟩,
  ⟨101, bs "101", bs "Switching Protocols"⟩,
  ⟨102, bs "102", bs "Processing"⟩,
  ⟨200, bs "200", bs "OK"⟩,
  ⟨201, bs "201", bs "Created"⟩,
  ⟨202, bs "202", bs "Accepted"⟩,
  ⟨203, bs "203", bs "Non-Authoritative Information"⟩,
  ⟨204, bs "204", bs "No Content"⟩,
  ⟨205, bs "205", bs "Reset Content"⟩,
  ⟨206, bs "206", bs "Partial Content"⟩,
  ⟨207, bs "207", bs "Multi-Status"⟩,
  ⟨208, bs "208", bs "Already Reported"⟩,
  ⟨226, bs "226", bs "IM Used"⟩,
  ⟨300, bs "300", bs "Multiple Choices"⟩,
  ⟨301, bs "301", bs "Moved Permanently"⟩,
  ⟨302, bs "302", bs "Found"⟩,
  ⟨303, bs "303", bs "See Other"⟩,
  ⟨304, bs "304", bs "Not Modified"⟩,
  ⟨305, bs "305", bs "Use Proxy"⟩,
  ⟨306, bs "306", bs "Switch Proxy"⟩,
  ⟨307, bs "307", bs "Temporary Redirect"⟩,
  ⟨308, bs "308", bs "Permanent Redirect"⟩,
  ⟨400, bs "400", bs "Bad Request"⟩,
  ⟨401, bs "401", bs "Unauthorized"⟩,
  ⟨402, bs "402", bs "Payment Required"⟩,
  ⟨403, bs "403", bs "Forbidden"⟩,
  ⟨404, bs "404", bs "Not Found"⟩,
  ⟨405, bs "405", bs "Method Not Allowed"⟩,
  ⟨406, bs "406", bs "Not Acceptable"⟩,
  ⟨407, bs "407", bs "Proxy Authentication Required"⟩,
  ⟨408, bs "408", bs "Request Timeout"⟩,
  ⟨409, bs "409", bs "Conflict"⟩,
  ⟨410, bs "410", bs "Gone"⟩,
  ⟨411, bs "411", bs "Length Required"⟩,
  ⟨412, bs "412", bs "Precondition Failed"⟩,
  ⟨413, bs "413", bs "Payload Too Large"⟩,
  ⟨414, bs "414", bs "URI Too Long"⟩,
  ⟨415, bs "415", bs "Unsupported Media Type"⟩,
  ⟨416, bs "416", bs "Requested Range Not Satisfiable"⟩,
  ⟨417, bs "417", bs "Expectation Failed"⟩,
  ⟨418, bs "418", bs "I'm a teapot"⟩,
  ⟨422, bs "422", bs "Unprocessable Entity"⟩,
  ⟨423, bs "423", bs "Locked"⟩,
  ⟨424, bs "424", bs "Failed Dependency"⟩,
  ⟨426, bs "426", bs "Upgrade Required"⟩,
  ⟨428, bs "428", bs "Precondition Required"⟩,
  ⟨429, bs "429", bs "Too Many Requests"⟩,
  ⟨431, bs "431", bs "Header Fields Too Large"⟩,
  ⟨451, bs "451", bs "Unavailable For Legal Reasons"⟩,
  ⟨500, bs "500", bs "Internal Server Error"⟩,
  ⟨501, bs "501", bs "Not Implemented"⟩,
  ⟨502, bs "502", bs "Bad Gateway"⟩,
  ⟨503, bs "503", bs "Service Unavailable"⟩,
  ⟨504, bs "504", bs "Gateway Timeout"⟩,
  ⟨505, bs "505", bs "HTTP Version Not Supported"⟩,
  ⟨506, bs "506", bs "Variant Also Negotiates"⟩,
  ⟨507, bs "507", bs "Insufficient Storage"⟩,
  ⟨508, bs "508", bs "Loop Detected"⟩,
  ⟨510, bs "510", bs "Not Extended"⟩,
  ⟨511, bs "511", bs "Network Authentication Required"⟩]

/-- net/http/const.go:440-442 `GetStatusText`; a missing key of the map reads as the empty string -/
def getStatusText (code : U16) : Bytes :=
  match statusTable.find? (fun r => r.number = code.toNat) with
  | some r => r.phrase
  | none => []

/-- Go `strconv.ParseUint(s, 10, bits)`; `none` is an error. -/
def parseUint (bits : Nat) (s : Bytes) : Option Nat :=
  if s = [] ∨ ¬ AllDigits s then none else if decVal s < 2 ^ bits then some (decVal s) else none

/-- net/http/response.go:60-67 `GetStatusCode`; `none` is ErrParseStatusCode -/
def Response.getStatusCode (r : Response) : Option U16 :=
  (parseUint 16 r.statusCode).map (BitVec.ofNat 16)

/-- net/http/response.go:87-90 `Redirect` -/
def Response.redirect (r : Response) (code phrase target : Bytes) : Option Response :=
  (r.setStatus code phrase).hset (bs "Location") target

/-- net/http/response.go:92-103 `SetStatusByError`; `tooLarge` and `unsupported` are
ErrParseHeaderTooLarge and UnsupportedTransferEncoding, `equal` is the error's own `Equal` -/
def Response.setStatusByError {E : Type} (equal : E → E → Bool) (tooLarge unsupported : E) (r : Response) :
    Option E → Response
  | none => r
  | some e =>
    if equal e tooLarge then r.setStatus (bs "431") (bs "Header Fields Too Large")
    else if equal e unsupported then r.setStatus (bs "501") (bs "Not Implemented")
    else r.setStatus (bs "400") (bs "Bad Request")

/-! ## Errors -/

/-- The URL-safe alphabet of `base64.RawURLEncoding`. -/
def urlCharOf (d : Nat) : Byte :=
  if d < 26 then BitVec.ofNat 8 (65 + d)
  else if d < 52 then BitVec.ofNat 8 (97 + (d - 26))
  else if d < 62 then BitVec.ofNat 8 (48 + (d - 52))
  else if d = 62 then ch '-' else ch '_'

/-- identifier/32byte/uuid.go:30 `IDasString`: `base64.RawURLEncoding` of the first eight bytes, of which
line 29 `ID` reads the number little-endian. -/
def idText (id : U64) : Bytes :=
  (Base64.digits 64 11 (Base64.value 256 ((List.range 8).map fun i => id.toNat / 256 ^ i % 256) * 4)).map urlCharOf

/-- net/http/response.go:81-83 `SetError` for an error of this identifier -/
def Response.setErrorID (r : Response) (id : U64) : Option Response := r.hset (bs "Error-ID") (idText id)

/-- net/http/response.go:70-78 `GetError`: the identifier it looks up, `none` when it reports no error
without a lookup -/
def Response.errorIDRead (r : Response) : Option U64 :=
  let errID := parseUint64 (r.header.get (bs "Error-ID"))
  if errID = 0 then none else some errID

/-- net/http/response.go:70-78 `GetError` -/
def Response.getError {α : Type} (reg : Registry.Errors.State α) (r : Response) : Registry.Errors.Lookup α :=
  match r.errorIDRead with
  | none => .nil
  | some id => Registry.Errors.getByID reg id

/-! ## Body and the outgoing response -/

/-- What the handler asks of a body's codec: media type text, content encoding text, length (Go `int`). -/
structure BodyCodec where
  mediaType : Option Bytes
  contentEncoding : Option Bytes
  len : Nat
  deriving DecidableEq, Repr

/-- net/http/body.go:28-33 `Len` -/
def bodyLen (b : Option BodyCodec) : Nat :=
  match b with
  | some c => c.len
  | none => 0
/-- net/http/body.go:34-39 `MediaType` -/
def bodyMediaType (b : Option BodyCodec) : Option Bytes := b.bind BodyCodec.mediaType
/-- net/http/body.go:40-45 `CompressType` -/
def bodyCompressType (b : Option BodyCodec) : Option Bytes := b.bind BodyCodec.contentEncoding

/-- net/http/body.go:22 `Body() != nil`: the method returns its receiver, which is never nil. -/
def bodyNotNil (_b : Option BodyCodec) : Bool := true

/-- net/http/v1/handler.go:70-73 and 74-77: set a line when the codec names a type -/
def setIfSome (h : Header) (key : Bytes) : Option Bytes → Option Header
  | none => some h
  | some v => h.set key v

/-- net/http/v1/handler.go:65-85 `HandleOutcomeResponse` up to the sending of the response at 89 -/
def handleOutcome (reqVersion : Bytes) (r : Response) (body : Option BodyCodec) : Option Response :=
  let r := { r with version := reqVersion }
  if bodyNotNil body then
    (setIfSome r.header (bs "Content-Type") (bodyMediaType body)).bind fun h =>
    (setIfSome h (bs "Content-Encoding") (bodyCompressType body)).bind fun h =>
    if bodyLen body > 0 then some { r with header := h.add (bs "Content-Length") (decDigits (bodyLen body)) }
    else some { r with header := h.add (bs "Transfer-Encoding") (bs "chunked") }
  else some { r with header := r.header.add (bs "Content-Length") (bs "0") }

/-! ## Host of a request -/

/-- net/http/request.go:66-70 `CheckHost` -/
def checkHost (u : Uri.URI) (h : Header) : Uri.URI :=
  if u.au.authority = [] then { u with au := { u.au with authority := h.get (bs "Host") } } else u

/-- The parts of a request that the host check reads (net/http/services/host-supported.go:56-58). -/
def requestOf (method : Bytes) (u : Uri.URI) : Request := ⟨method, u.au.host, u.path, u.query⟩

/-! ## Sending requests -/

/-- The states a stream reports that the sender looks at. -/
inductive NetStatus where
  | timeout | receivedCompletely | sentCompletely | other
  deriving DecidableEq, Repr

/-- The sender's result so far: still waiting, or returned with a response, an error and the number of
times it closed the stream. -/
inductive Sent (R E : Type) where
  | waiting
  | returned (res : Option R) (err : Option E) (closes : Nat)
  deriving DecidableEq, Repr

variable {R E : Type}

/-- net/http/v1/handler.go:115-135 the loop of `SendBidirectionalRequest` over the states received;
`decode` is `res.Decode(st)` followed by `res.GetError()` when it succeeds: the response as far as
decoded and the error -/
def awaitResponse (decode : R × Option E) : List NetStatus → Sent R E
  | [] => .waiting
  | .timeout :: _ => .returned none none 1
  | .receivedCompletely :: _ => .returned (some decode.1) decode.2 1
  | _ :: rest => awaitResponse decode rest

/-- net/http/v1/handler.go:102-136 `SendBidirectionalRequest`; `openErr`, `encodeErr` are the errors of
`OutcomeStream` and `Encode` -/
def sendBidirectional (openErr encodeErr : Option E) (decode : R × Option E) (statuses : List NetStatus) : Sent R E :=
  match openErr with
  | some e => .returned none (some e) 0
  | none =>
    match encodeErr with
    | some e => .returned none (some e) 0
    | none => awaitResponse decode statuses

/-- net/http/v1/handler.go:152-166 the loop of `SendUnidirectionalRequest` -/
def awaitSent : List NetStatus → Sent R E
  | [] => .waiting
  | .timeout :: _ => .returned none none 1
  | .sentCompletely :: _ => .returned none none 1
  | _ :: rest => awaitSent rest

/-- net/http/v1/handler.go:139-166 `SendUnidirectionalRequest` -/
def sendUnidirectional (openErr encodeErr : Option E) (statuses : List NetStatus) : Sent R E :=
  match openErr with
  | some e => .returned none (some e) 0
  | none =>
    match encodeErr with
    | some e => .returned none (some e) 0
    | none => awaitSent statuses

/-- net/srpc/handler.go:50-61 the loop of `SendBidirectionalRequest` over a channel that delivers these
states and, when `closed`, is then closed; the socket itself is the response -/
def srpcAwait (closed : Bool) (sk : R × Option E) : List NetStatus → Sent R E
  | [] => if closed then .returned none none 0 else .waiting
  | .timeout :: _ => .returned none none 0
  | .receivedCompletely :: _ => .returned (some sk.1) sk.2 0
  | _ :: rest => srpcAwait closed sk rest

/-- net/srpc/handler.go:41-63 `SendBidirectionalRequest`; the stream is left to the caller -/
def srpcSend (decodeErr : Option E) (closed : Bool) (sk : R × Option E) (statuses : List NetStatus) : Sent R E :=
  match decodeErr with
  | some e => .returned none (some e) 0
  | none => srpcAwait closed sk statuses

/-- net/srpc/handler.go:77-87 the loop of `SendUnidirectionalRequest` -/
def srpcAwaitSent (closed : Bool) : List NetStatus → Sent R E
  | [] => if closed then .returned none none 0 else .waiting
  | .timeout :: _ => .returned none none 0
  | .sentCompletely :: _ => .returned none none 0
  | _ :: rest => srpcAwaitSent closed rest

/-- net/srpc/handler.go:68-89 `SendUnidirectionalRequest` -/
def srpcSendUni (decodeErr : Option E) (closed : Bool) (statuses : List NetStatus) : Sent R E :=
  match decodeErr with
  | some e => .returned none (some e) 0
  | none => srpcAwaitSent closed statuses

/-- net/srpc/handler.go:14-36 `HandleIncomeRequest`: the error set on the application layer and the
response set on it; `service` is `none` for no service or one that does not serve sRPC -/
def srpcServe {C : Type} (service : Option (Except E C)) : Option E × Option C :=
  match service with
  | none => (none, none)
  | some (.error e) => (some e, none)
  | some (.ok res) => (none, some res)

/-! ## Serving files -/

/-- net/http/services/serve-www.go:63-80 `ServeHTTP`: `byPath` is `FileByPath` (its error is dropped) and
`main` is the page and error of `MainHTMLDir.File("en")`; `none` is the nil dereference of `reqFile.Data()` -/
def serveWWW {F : Type} (byPath : Option F) (main : Option F × Option E) (r : Response) :
    Option (Response × F × Option E) :=
  let (reqFile, err) : Option F × Option E :=
    match byPath with
    | some f => (some f, none)
    | none => main
  (r.setStatus (bs "200") (bs "OK")).hset (bs "Cache-Control") (bs "max-age=31536000, immutable") |>.bind fun r =>
  reqFile.map fun f => (r, f, err)

end Memar.Http
