import Verif.Http.ContentType
import Verif.Http.Cookie

/-!
# Package `net/http`: the lines of a header with a meaning of their own (header-*.go)

`time.Parse` and `Time.Format` (standard library) are parameters; the body of a message is known by its length only.
-/

namespace Memar.Http
open Memar Decimal

/-- net/http/header-transfer-encoding.go:13-16 `TransferEncoding` -/
def Header.transferEncoding (h : Header) : Bytes := h.get (bs "Transfer-Encoding")
/-- net/http/header-transfer-encoding.go:19-21 `AddTransferEncoding` -/
def Header.addTransferEncoding (h : Header) (te : Bytes) : Header := h.add (bs "Transfer-Encoding") te

/-- net/http/header-content-encoding.go:10-13 `ContentEncoding` -/
def Header.contentEncoding (h : Header) : Bytes := h.get (bs "Content-Encoding")
/-- net/http/header-content-encoding.go:15-17 `AddContentEncoding` -/
def Header.addContentEncoding (h : Header) (ce : Bytes) : Header := h.add (bs "Content-Encoding") ce

/-- net/http/header-cookie.go:16-19 `Cookies` -/
def Header.cookies (h : Header) : Bytes := h.get (bs "Cookie")
/-- net/http/header-cookie.go:20-22 `AddCookies` -/
def Header.addCookies (h : Header) (cookies : Bytes) : Header := h.add (bs "Cookie") cookies

/-- net/http/header-content-type.go:15-17 `AddContentType` -/
def Header.addContentType (h : Header) (ct : Bytes) : Header := h.add (bs "Content-Type") ct

/-- net/http/header-content-length.go:22-24 `AddZeroContentLength` -/
def Header.addZeroContentLength (h : Header) : Header := h.add (bs "Content-Length") (bs "0")

/-- net/http/header-content-length.go:27-29 and net/http/header-content-length.go:32-34 `AddContentLength` of a request and of a response
whose body answers `bodyLen` to `Len()`; `uint64(…)` wraps a negative answer. -/
def Header.addBodyLength (h : Header) (bodyLen : Int) : Header :=
  h.add (bs "Content-Length") (decDigits (BitVec.ofInt 64 bodyLen).toNat)

/-- net/http/header-set-cookie.go:91-101 `GetExpire`: `rfc1123` is `time.Parse(time.RFC1123, _)`, `dashed` is
`time.Parse("Mon, 02-Jan-2006 15:04:05 MST", _)`; no result stands for an error. -/
def SetCookie.getExpire {T : Type} (zero : T) (rfc1123 dashed : Bytes → Option T) (sc : SetCookie) : T :=
  match rfc1123 sc.expires with
  | some t => t
  | none =>
    match dashed sc.expires with
    | some t => t
    | none => zero

/-- net/http/header-set-cookie.go:105-107 `SetExpire`: `utc` is `Time.UTC`, `format` is `Time.Format(TimeFormat)`. -/
def SetCookie.setExpire {T : Type} (utc : T → T) (format : T → Bytes) (sc : SetCookie) (t : T) : SetCookie :=
  { sc with expires := format (utc t) }

end Memar.Http
