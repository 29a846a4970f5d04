import Verif.Http.Header

/-!
# Package `net/http/services` and `net/http/v1`: host check, service multiplexer, request pipeline

Modelled: the decisions, the response status and header lines, which handler runs, and when the
response is sent. Not modelled: log output (net/http/services/host-supported.go:65,80,87,102), the headers added from
the body's codec just before sending (net/http/v1/handler.go:67-85), the developer log (91-97).
The services call the header through an older spelling (`H.Set`); it is modelled as `Header_Set`.
-/

namespace Memar.Http
open Memar

/-- net/http/response.go:15-19, net/http/response-pseudo_header.go:9-13 (body: see the note above) -/
structure Response where
  version : Bytes
  statusCode : Bytes
  reasonPhrase : Bytes
  header : Header
  deriving DecidableEq, Repr

/-- net/http/response.go:22-33 `Init` on a zero value -/
def Response.init : Response := ⟨[], [], [], Header.init⟩

/-- net/http/response-pseudo_header.go:34-37 `SetStatus` -/
def Response.setStatus (r : Response) (code phrase : Bytes) : Response :=
  { r with statusCode := code, reasonPhrase := phrase }

/-- `httpRes.H.Set(key, value)` -/
def Response.hset (r : Response) (key value : Bytes) : Option Response := do
  let h ← r.header.set key value
  some { r with header := h }

/-- The parts of a request the services look at. -/
structure Request where
  method : Bytes
  host : Bytes
  path : Bytes
  query : Bytes
  deriving DecidableEq, Repr

/-- net/http/services/host-supported.go:69-72 and 92-95 the redirect target -/
def redirectTarget (domainName path query : Bytes) : Bytes :=
  let target := bs "https://" ++ domainName ++ path
  if query.length > 0 then target ++ bs "?" ++ query else target

/-- net/http/services/host-supported.go:73-75 and 96-98 -/
def permanentRedirect (res : Response) (target : Bytes) : Option Response := do
  let r := res.setStatus (bs "301") (bs "Moved Permanently")
  let r ← r.hset (bs "Location") target
  r.hset (bs "Cache-Control") (bs "max-age=31536000, immutable")

/-- net/http/services/host-supported.go:54-108 `hostSupportedService.ServeHTTP`:
(supported, response afterwards) -/
def hostSupported (domainName : Bytes) (req : Request) (res : Response) : Option (Bool × Response) :=
  let host := req.host
  match host with
  | [] => some (true, res)
  | b :: _ =>
    if ch '0' ≤ b ∧ b ≤ ch '9' then do
      let r ← permanentRedirect res (redirectTarget domainName req.path req.query)
      some (false, r)
    else if host.length > 4 ∧ host.take 4 = bs "www." then
      if host.drop 4 ≠ domainName then some (false, res)
      else do
        let r ← permanentRedirect res (redirectTarget domainName req.path req.query)
        some (false, r)
    else if host ≠ domainName then some (false, res)
    else some (true, res)

/-- What the services know of the rest of the system. `S` are services, `E` are errors.
`getServiceByID`, `getServiceByURI`: the application's registry; `serve`: a service's own handler;
`base64RawURL`: `base64.RawURLEncoding.Decode` into an 8-byte array, read little-endian
(`none` = panics, `some none` = reports an error). -/
structure Env (S E : Type) where
  idAsString : E → Bytes
  errNotFound : E
  getServiceByID : U64 → Except E S
  getServiceByURI : Bytes → Option S
  serve : S → Response → Response × Option E
  base64RawURL : Bytes → Option (Option U64)
  serveWWW : Response → Option (Response × Option E)

variable {S E : Type}

/-- identifier/32byte/uuid.go:102-112 `IDfromString`: the decoder's error is dropped (107 is
commented out), the identifier is then 0. -/
def idFromString (env : Env S E) (q : Bytes) : Option (Except E U64) :=
  match env.base64RawURL q with
  | none => none
  | some none => some (.ok 0)
  | some (some id) => some (.ok id)

/-- net/http/response.go:81-83 `SetError` -/
def Response.setError (env : Env S E) (r : Response) (e : E) : Option Response :=
  r.hset (bs "Error-ID") (env.idAsString e)

/-- The outcome of a handler: response, returned error, and the services that ran (in order). -/
structure Outcome (S E : Type) where
  res : Response
  err : Option E
  ran : List S

/-- net/http/services/service-mux.go:50-85 `muxService.ServeHTTP`; the identifier parser is a
parameter so that the decision table can be stated for any parser. -/
def mux (env : Env S E) (parse : Bytes → Option (Except E U64)) (req : Request) (res : Response) :
    Option (Outcome S E) :=
  if req.method ≠ bs "POST" then
    some ⟨res.setStatus (bs "405") (bs "Method Not Allowed"), none, []⟩
  else do
    match ← parse req.query with
    | .ok serviceID =>
      match env.getServiceByID serviceID with
      | .error e => do
        let r := res.setStatus (bs "404") (bs "Not Found")
        let r ← r.setError env env.errNotFound
        some ⟨r, some e, []⟩
      | .ok service => do
        let r ← res.hset (bs "X-Robots-Tag") (bs "noindex")
        let (r, err) := env.serve service r
        match err with
        | none => some ⟨r, none, [service]⟩
        | some e => do
          let r ← r.setError env e
          some ⟨r, some e, [service]⟩
    | .error e => do
      let r := res.setStatus (bs "400") (bs "Bad Request")
      let r ← r.setError env e
      some ⟨r, some e, []⟩

/-- Observable actions of the pipeline. -/
inductive Action (S : Type) where
  | ran (s : S)
  | www
  | respond (r : Response)

/-- net/http/v1/handler.go:38 the host check, skipped in developer mode -/
def hostGate (devMode : Bool) (domainName : Bytes) (req : Request) (res : Response) :
    Option (Bool × Response) :=
  if devMode then some (true, res) else hostSupported domainName req res

/-- net/http/v1/handler.go:43-61 the dispatch by path -/
def dispatchV1 (env : Env S E) (req : Request) (res : Response) :
    Option (List (Action S) × Option E) :=
  if req.path = bs "/s" then
    (mux env (idFromString env) req res).map fun o => (o.ran.map .ran ++ [.respond o.res], o.err)
  else if req.path = bs "/l" then some ([.respond res], none)
  else
    match env.getServiceByURI req.path with
    | none => (env.serveWWW res).map fun p => ([.www, .respond p.1], p.2)
    | some s => some ([.ran s, .respond (env.serve s res).1], (env.serve s res).2)

/-- net/http/v1/handler.go:37-62 `V1.ServeHTTP`: the actions in order. -/
def serveV1 (env : Env S E) (devMode : Bool) (domainName : Bytes) (req : Request) (res : Response) :
    Option (List (Action S) × Option E) :=
  match hostGate devMode domainName req res with
  | none => none
  | some (supported, res) =>
    if !supported then some ([.respond res], none) else dispatchV1 env req res

/-- net/http/v1/handler.go:18-33 `HandleIncomeRequest`; `decoded` is what reading the request from the
stream gave, `none` from a handler is a panic -/
def handleIncome (env : Env S E) (devMode : Bool) (domainName : Bytes) (decoded : Except E Request) :
    Option (List (Action S) × Option E) :=
  match decoded with
  | .error e => some ([.respond (Response.init.setStatus (bs "400") (bs "Bad Request"))], some e)
  | .ok req => serveV1 env devMode domainName req Response.init

end Memar.Http
