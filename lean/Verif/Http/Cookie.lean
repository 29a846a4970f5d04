import Verif.Strings
import Verif.Http.Header

/-!
# Package `net/http`: cookies (header-cookie.go, header-set-cookie.go) and coding lists
(header-content-encoding.go, header-transfer-encoding.go, header-pragma.go)

`strings.ToLower` and `net.ParseIP` are parameters. `GetExpire` and `SetExpire` are in
`Verif/Http/Typed.lean`, their texts in `Verif/Http/Expiry.lean`.
-/

namespace Memar.Http
open Memar

/-- The cookie errors of net/http/errors. -/
inductive CookieErr where
  | badName | badValue | badPath | badDomain
  deriving DecidableEq, Repr

/-- net/http/header-cookie.go:64-67 -/
structure Cookie where
  name : Bytes
  value : Bytes
  deriving DecidableEq, Repr

/-- net/http/header-cookie.go:119-127 one turn of the loop of `sanitizeCookieName`: the byte appended
and whether the error is set -/
def nameByte (b : Byte) : Byte × Bool := if b = 10#8 ∨ b = 13#8 then (ch '-', true) else (b, false)

/-- net/http/header-cookie.go:115-130 `sanitizeCookieName` -/
def sanitizeCookieName (n : Bytes) : Bytes × Option CookieErr :=
  n.foldl (fun acc b => (acc.1 ++ [(nameByte b).1], if (nameByte b).2 then some .badName else acc.2)) ([], none)

/-- net/http/header-cookie.go:147 the test of `sanitizeCookieValue` -/
def valueByteOk (b : Byte) : Bool :=
  0x20 ≤ b && b < 0x7f && b != ch ' ' && b != ch '"' && b != ch ',' && b != ch '\\'

/-- net/http/header-set-cookie.go:292 the test of `sanitizeCookiePath` -/
def pathByteOk (b : Byte) : Bool := 0x20 ≤ b && b < 0x7f

/-- The common loop of `sanitizeCookieValue` and `sanitizeCookiePath`: keep the good bytes, set the
error at a bad one. -/
def dropLoop (ok : Byte → Bool) (e : CookieErr) (v : Bytes) : Bytes × Option CookieErr :=
  v.foldl (fun acc b => if ok b then (acc.1 ++ [b], acc.2) else (acc.1, some e)) ([], none)

/-- net/http/header-cookie.go:141-155 `sanitizeCookieValue` -/
def sanitizeCookieValue (v : Bytes) : Bytes × Option CookieErr := dropLoop valueByteOk .badValue v

/-- net/http/header-set-cookie.go:286-300 `sanitizeCookiePath` -/
def sanitizeCookiePath (v : Bytes) : Bytes × Option CookieErr := dropLoop pathByteOk .badPath v

/-- net/http/header-cookie.go:70-77 `CheckAndSanitize` -/
def Cookie.checkAndSanitize (c : Cookie) : Cookie × Option CookieErr :=
  let (n, err) := sanitizeCookieName c.name
  if err ≠ none then (⟨n, c.value⟩, err)
  else
    let (v, err) := sanitizeCookieValue c.value
    (⟨n, v⟩, err)

/-- net/http/header-cookie.go:80-82 `Marshal` -/
def Cookie.marshal (c : Cookie) : Bytes := c.name ++ bs "=" ++ c.value

/-- net/http/header-cookie.go:85-93 `Unmarshal` into a cookie `c` -/
def Cookie.unmarshal (c : Cookie) (cookie : Bytes) : Cookie :=
  match indexByte cookie (ch '=') with
  | none => c
  | some i =>
    if i < 1 ∨ i + 1 = cookie.length then c
    else ⟨cookie.take i, cookie.drop (i + 1)⟩

/-- net/http/header-cookie.go:96-113 `UnmarshalFrom`: (cookie, remain) -/
def Cookie.unmarshalFrom (c : Cookie) (cookies : Bytes) : Option (Cookie × Bytes) :=
  match indexByte cookies (ch '=') with
  | none => some (c, [])
  | some eq =>
    if eq < 1 ∨ eq + 1 = cookies.length then some (c, [])
    else
      let name := cookies.take eq
      match indexByte cookies (ch ';') with
      | none => some (⟨name, cookies.drop (eq + 1)⟩, [])
      | some semi => do
        let value ← slice cookies (eq + 1) semi
        let remain ← sliceFrom cookies (semi + 2)
        some (⟨name, value⟩, remain)

/-- net/http/header-cookie.go:46-60 `Cookies.Next`: (cookie, exist, the cookies left) -/
def cookiesNext (cs : Bytes) : Option (Cookie × Bool × Bytes) :=
  if cs.length = 0 then some (⟨[], []⟩, false, cs)
  else do
    let (cookie, remain) ← Cookie.unmarshalFrom ⟨[], []⟩ cs
    if remain.length > 0 then some (cookie, true, remain) else some (cookie, false, cs)

/-- A caller's loop `for cookie, ok := cs.Next(); ok; cookie, ok = cs.Next()`, with a bound on the
number of turns; the cookies it sees. -/
def cookiesLoop : Nat → Bytes → Option (List Cookie)
  | 0, _ => some []
  | n + 1, cs => do
    let (cookie, exist, cs') ← cookiesNext cs
    if exist then do
      let l ← cookiesLoop n cs'
      some (cookie :: l)
    else some []

/-- net/http/header-cookie.go:30-39 the loop of `AddCookie` from index `i` with the text `b` so far -/
def addCookieLoop (cookies : List Cookie) (i : Nat) (b : Bytes) : Option Bytes :=
  match cookies[i]? with
  | none => none
  | some c =>
    let b := b ++ c.name ++ [ch '='] ++ c.value
    if i < cookies.length then addCookieLoop cookies (i + 1) (b ++ bs "; ") else some b
  termination_by cookies.length - i

/-- net/http/header-cookie.go:25-41 `AddCookie` -/
def Header.addCookie (h : Header) (cookies : List Cookie) : Option Header := do
  let b ← addCookieLoop cookies 0 []
  some (h.add (bs "Cookie") b)

/-! ## Set-Cookie -/

/-- net/http/header-set-cookie.go:60-70 -/
structure SetCookie where
  name : Bytes := []
  value : Bytes := []
  path : Bytes := []
  domain : Bytes := []
  expires : Bytes := []
  maxAge : Bytes := []
  secure : Bool := false
  httpOnly : Bool := false
  sameSite : Bytes := []
  deriving DecidableEq, Repr

/-- net/http/header-set-cookie.go:179-214 `Marshal` -/
def SetCookie.marshal (sc : SetCookie) : Bytes :=
  let b := sc.name ++ [ch '='] ++ sc.value
  let b := if sc.path.length > 0 then b ++ bs "; Path=" ++ sc.path else b
  let b := if sc.domain.length > 0 then b ++ bs "; Domain=" ++ sc.domain else b
  let b := if sc.expires.length > 0 then b ++ bs "; Expires=" ++ sc.expires else b
  let b := if sc.maxAge.length > 0 then b ++ bs "; Max-Age=" ++ sc.maxAge else b
  let b := if sc.httpOnly then b ++ bs "; HttpOnly" else b
  let b := if sc.secure then b ++ bs "; Secure" else b
  if sc.sameSite.length > 0 then b ++ bs "; SameSite=" ++ sc.sameSite else b

/-- net/http/header-set-cookie.go:257-279 the switch on the attribute name -/
def SetCookie.assign (sc : SetCookie) (attr val : Bytes) : SetCookie :=
  if attr = bs "samesite" then { sc with sameSite := val }
  else if attr = bs "secure" then { sc with secure := true }
  else if attr = bs "httponly" then { sc with httpOnly := true }
  else if attr = bs "domain" then { sc with domain := val }
  else if attr = bs "max-age" then { sc with maxAge := val }
  else if attr = bs "expires" then { sc with expires := val }
  else if attr = bs "path" then { sc with path := val }
  else sc

/-- net/http/header-set-cookie.go:247-255 attribute name and value of the text `s` whose next
semicolon (or end) is at `semi`; `val` is the value left over from the previous turn -/
def attrOf (toLower : Bytes → Bytes) (s : Bytes) (semi : Nat) (val : Bytes) : Option (Bytes × Bytes) :=
  match indexByte s (ch '=') with
  | none => do
    let a ← sliceTo s semi
    some (toLower a, val)
  | some i => do
    let a ← sliceTo s i
    let v ← slice s (i + 1) semi
    some (toLower a, v)

/-- net/http/header-set-cookie.go:238-280 the loop of `Unmarshal`: `s` is the remaining text, `semi`
the index of its next semicolon -/
def unmarshalLoop (toLower : Bytes → Bytes) (sc : SetCookie) (s : Bytes) (semi : Nat) (val : Bytes) :
    Option SetCookie :=
  if h : semi + 2 ≤ s.length then
    let s' := s.drop (semi + 2)
    match hs : indexByte s' (ch ';') with
    | none => do
      let (attr, val) ← attrOf toLower s' s'.length val
      some (sc.assign attr val)
    | some semi' => do
      let (attr, val) ← attrOf toLower s' semi' val
      unmarshalLoop toLower (sc.assign attr val) s' semi' val
  else none
  termination_by s.length
  decreasing_by simp; omega

/-- net/http/header-set-cookie.go:219-281 `Unmarshal` -/
def SetCookie.unmarshal (toLower : Bytes → Bytes) (sc : SetCookie) (setCookie : Bytes) : Option SetCookie :=
  match indexByte setCookie (ch '=') with
  | none => some sc
  | some i =>
    if i < 1 then some sc
    else
      let sc := { sc with name := setCookie.take i }
      let s := setCookie.drop (i + 1)
      match indexByte s (ch ';') with
      | none => some { sc with value := s }
      | some j => unmarshalLoop toLower { sc with value := s.take j } s j []

/-- net/http/header-set-cookie.go:321-345 the tests of one turn of the loop of `sanitizeCookieDomain`:
the new `partlen`, or `none` for the error return -/
def domainStep (b last : Byte) (partlen : Nat) : Option Nat :=
  if (ch 'a' ≤ b && b ≤ ch 'z') || (ch 'A' ≤ b && b ≤ ch 'Z') then some (partlen + 1)
  else if ch '0' ≤ b && b ≤ ch '9' then some (partlen + 1)
  else if b = ch '-' then
    if last = ch '.' then none else some (partlen + 1)
  else if b = ch '.' then
    if last = ch '.' ∨ last = ch '-' then none
    else if partlen > 63 ∨ partlen = 0 then none
    else some 0
  else none

/-- net/http/header-set-cookie.go:319-347 the loop: the final `last` and `partlen` -/
def domainLoop : Bytes → Byte → Nat → Option (Byte × Nat)
  | [], last, partlen => some (last, partlen)
  | b :: r, last, partlen =>
    match domainStep b last partlen with
    | none => none
    | some p => domainLoop r b p

/-- net/http/header-set-cookie.go:311-314 the optional leading dot -/
def stripDot : Bytes → Bytes
  | [] => []
  | b :: r => if b = ch '.' then r else b :: r

/-- net/http/header-set-cookie.go:304-358 `sanitizeCookieDomain` -/
def sanitizeCookieDomain (parseIP : Bytes → Bool) (d : Bytes) : Bytes × Option CookieErr :=
  if d.length = 0 ∨ d.length > 255 then ([], some .badDomain)
  else
    let d := stripDot d
    match domainLoop d (ch '.') 0 with
    | none => ([], some .badDomain)
    | some (last, partlen) =>
      if last ≠ ch '-' ∧ last ≠ ch '.' ∧ partlen < 64 then (d, none)
      else if parseIP d then (d, none)
      else ([], some .badDomain)

/-- net/http/header-set-cookie.go:73-88 `CheckAndSanitize` -/
def SetCookie.checkAndSanitize (parseIP : Bytes → Bool) (sc : SetCookie) : SetCookie × Option CookieErr :=
  let (n, err) := sanitizeCookieName sc.name
  let sc := { sc with name := n }
  if err ≠ none then (sc, err)
  else
    let (v, err) := sanitizeCookieValue sc.value
    let sc := { sc with value := v }
    if err ≠ none then (sc, err)
    else
      let (p, err) := sanitizeCookiePath sc.path
      let sc := { sc with path := p }
      if err ≠ none then (sc, err)
      else
        let (d, err) := sanitizeCookieDomain parseIP sc.domain
        ({ sc with domain := d }, err)

/-! ## Lists of codings -/

/-- net/http/header-content-encoding.go:28-46 `ContentEncodings.Last` and
net/http/header-transfer-encoding.go:32-50 `TransferEncodings.Last` (identical code):
(coding, exist, codings left) -/
def codingsLast (ce : Bytes) : Option (Bytes × Bool × Bytes) :=
  if ce.length = 0 then some ([], false, ce)
  else
    match lastIndexByte ce (ch ',') with
    | none => do
      let e ← sliceFrom ce (0 + 1)
      some (e, true, [])
    | some i =>
      if i < 1 then none
      else do
        let left ← sliceTo ce (i - 1)
        let e ← sliceFrom ce (i + 1)
        some (e, true, left)

/-- net/http/header-pragma.go:6-12 `FixPragmaCacheControl` -/
def Header.fixPragmaCacheControl (h : Header) : Header :=
  if h.get (bs "Pragma") = bs "no-cache" then
    if h.get (bs "Cache-Control") = [] then h.add (bs "Cache-Control") (bs "no-cache") else h
  else h

end Memar.Http
