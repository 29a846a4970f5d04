import Verif.Strings
import Verif.Uri.Escape

/-!
# Model of `net/uri`: URI text, authority and query

Strings are byte lists; `none` is a panic.  `utf8.CutByte` is not in the repository: it is taken to
be Go's `strings.Cut` for one byte.  A string made from a byte slice without copying is the list of
its bytes; that later writes to the slice show through is in `Verif/Shared/Texts.lean`.
-/

namespace Memar.Uri

/-- `before, after, found` of a cut at the first `c`; not found: everything is before. -/
def cutByte (s : Bytes) (c : Byte) : Bytes × Bytes :=
  match indexByte s c with
  | none => (s, [])
  | some i => (s.take i, s.drop (i + 1))

/-- net/uri/uri-user_Information.go:12-16 -/
structure UserInformation where
  userinfo : Bytes := []
  username : Bytes := []
  password : Bytes := []
deriving DecidableEq, Repr

/-- net/uri/uri-user_Information.go:19-23 -/
def UserInformation.init (ui : Bytes) : UserInformation :=
  ⟨ui, (cutByte ui (ch ':')).1, (cutByte ui (ch ':')).2⟩

/-- net/uri/uri-authority.go:15-20 -/
structure Authority where
  authority : Bytes := []
  user : UserInformation := {}
  host : Bytes := []
  port : Bytes := []
deriving DecidableEq, Repr

/-- net/uri/uri-authority.go:23-38 -/
def Authority.init (a : Authority) (au : Bytes) : Authority :=
  if au = [] then a
  else
    match indexByte au (ch '@') with
    | some (i + 1) =>
      /- lines 32-33: what is kept is the text up to and including the `@` -/
      let au' := au.take (i + 2)
      ⟨au, .init (au.take (i + 1)), (cutByte au' (ch ':')).1, (cutByte au' (ch ':')).2⟩
    | _ => ⟨au, a.user, (cutByte au (ch ':')).1, (cutByte au (ch ':')).2⟩

/-- net/uri/uri.go:18-27; `raw` is `uriAsByte`, `none` is the nil slice. -/
structure URI where
  uri : Bytes := []
  raw : Option Bytes := none
  scheme : Bytes := []
  au : Authority := {}
  path : Bytes := []
  query : Bytes := []
  fragment : Bytes := []
deriving DecidableEq, Repr

/-- net/uri/uri-authority.go:39-45 and net/uri/uri.go:34-46: `uriAsByte` becomes an empty slice that
is not nil. -/
def URI.reinit (_u : URI) : URI := { raw := some [] }

/-- net/uri/uri.go:51-53 -/
def URI.set (u : URI) (scheme authority path query fragment : Bytes) : URI :=
  { u with scheme, au := { u.au with authority }, path, query, fragment }

/-- net/uri/uri.go:71 -/
def URI.isAbs (u : URI) : Bool := !u.scheme.isEmpty

/-- net/uri/uri.go:237-241 -/
def URI.rawLen (u : URI) : Nat :=
  4 + (u.scheme.length + u.au.authority.length + u.path.length + u.query.length + u.fragment.length)

/-- net/uri/uri.go:76-82 -/
def URI.len (u : URI) : Nat :=
  match u.raw with
  | none => u.rawLen
  | some r => if r.length = 0 then u.rawLen else r.length

/-- The text put together by net/uri/uri.go:146-159. -/
def URI.text (u : URI) : Bytes :=
  (if u.scheme ≠ [] then u.scheme ++ bs "://" else []) ++ u.au.authority ++
    (if u.path = [] then [ch '/'] else u.path) ++
    (if u.query ≠ [] then ch '?' :: u.query else [])

/-- net/uri/uri.go:144-165: the packet and the URI afterwards. -/
def URI.marshalTo' (u : URI) (packet : Bytes) : Bytes × URI :=
  (packet ++ u.text, { u with raw := some u.text, uri := u.text })

/-- net/uri/uri.go:96-102 -/
def URI.marshal (u : URI) : Bytes × URI :=
  match u.raw with
  | none => (u.text, (u.marshalTo' []).2)
  | some r => (r, u)

/-- net/uri/uri.go:105-110 -/
def URI.marshalTo (u : URI) (packet : Bytes) : Bytes × URI :=
  match u.raw with
  | none => u.marshalTo' packet
  | some r => (packet ++ r, u)

/-- The local variables of net/uri/uri.go:177: `aS`, `pS`, `qI`, `nI` are `authorityStartIndex`,
`pathStartIndex`, `questionIndex` and `numberSignIndex`. -/
structure Scan where
  u : URI
  aS : Nat := 0
  pS : Nat := 0
  qI : Nat := 0
  nI : Nat := 0

/-- The case of net/uri/uri.go:190-198: a slash at `i`. -/
def onSlash (s : Bytes) (origin : Bool) (i : Nat) (st : Scan) : Option Scan :=
  if st.aS ≠ 0 ∧ st.pS = 0 then
    (slice s st.aS i).map fun a =>
      { st with pS := i, u := { st.u with au := { st.u.au with authority := a } } }
  else if origin = false ∧ st.pS = 0 ∧ i ≠ 0 then
    (slice s 0 i).map fun a =>
      { st with pS := i, u := { st.u with au := { st.u.au with authority := a } } }
  else some st

/-- The case of net/uri/uri.go:199-204: a question mark at `i`. -/
def onQuestion (s : Bytes) (i : Nat) (st : Scan) : Option Scan :=
  if st.qI = 0 then
    (slice s st.pS i).map fun p => { st with qI := i, u := { st.u with path := p } }
  else some st

/-- The case of net/uri/uri.go:205-213: a number sign at `i`. -/
def onNumber (s : Bytes) (i : Nat) (st : Scan) : Option Scan :=
  if st.nI = 0 then
    if st.qI = 0 then
      (slice s st.pS i).map fun p => { st with nI := i, u := { st.u with path := p } }
    else
      (slice s (st.qI + 1) i).map fun q => { st with nI := i, u := { st.u with query := q } }
  else some st

/-- The loop of net/uri/uri.go:181-218: the variables and `i` where it ends. -/
def scan (s : Bytes) (origin : Bool) (i : Nat) (st : Scan) : Option (Scan × Nat) :=
  match _h : s[i]? with
  | none => some (st, i)
  | some c =>
    if c = ch ':' then
      if st.aS = 0 then
        scan s origin (i + 3) { st with aS := i + 3, u := { st.u with scheme := s.take i } }
      else scan s origin (i + 1) st
    else if c = ch '/' then
      match onSlash s origin i st with
      | none => none
      | some st' => scan s origin (i + 1) st'
    else if c = ch '?' then
      match onQuestion s i st with
      | none => none
      | some st' => scan s origin (i + 1) st'
    else if c = ch '#' then
      match onNumber s i st with
      | none => none
      | some st' => scan s origin (i + 1) st'
    else if c = ch ' ' then some (st, i)
    else scan s origin (i + 1) st
termination_by s.length - i
decreasing_by
  all_goals
    have := (List.getElem?_eq_some_iff.mp _h).1
    omega

/-- net/uri/uri.go:221-223 -/
def endPath (s : Bytes) (st : Scan) (e : Nat) (u : URI) : Option URI :=
  if st.qI = 0 ∧ st.nI = 0 then (slice s st.pS e).map fun p => { u with path := p } else some u

/-- net/uri/uri.go:224-226 -/
def endFragment (s : Bytes) (st : Scan) (e : Nat) (u : URI) : Option URI :=
  if st.nI ≠ 0 then (slice s (st.nI + 1) e).map fun f => { u with fragment := f } else some u

/-- net/uri/uri.go:227-229 -/
def endQuery (s : Bytes) (st : Scan) (e : Nat) (u : URI) : Option URI :=
  if st.qI ≠ 0 ∧ st.nI = 0 then (slice s (st.qI + 1) e).map fun q => { u with query := q } else some u

/-- net/uri/uri.go:220-229 -/
def finish (s : Bytes) (st : Scan) (e : Nat) : Option URI :=
  ((endPath s st e st.u).bind (endFragment s st e)).bind (endQuery s st e)

/-- net/uri/uri.go:168-235: the URI and where its text ends.  The error is always nil. -/
def unmarshalFromString (u : URI) (s : Bytes) : Option (URI × Nat) :=
  match s[0]? with
  | none => none
  | some c =>
    if c = ch '*' then (sliceTo s 1).map fun t => ({ u with uri := t, raw := some t }, 1)
    else
      match scan s (decide (c = ch '/')) 0 { u := u } with
      | none => none
      | some (st, e) =>
        match finish s st e with
        | none => none
        | some u' => (sliceTo s e).map fun t => ({ u' with uri := t, raw := some t }, e)

/-- net/uri/uri.go:113-118 -/
def URI.unmarshal (u : URI) (b : Bytes) : Option URI :=
  (unmarshalFromString { u with uri := b, raw := some b } b).map (·.1)

/-- net/uri/uri.go:121-126 -/
def URI.unmarshalFrom (u : URI) (data : Bytes) : Option (URI × Bytes) :=
  match unmarshalFromString u data with
  | none => none
  | some (u', e) => (sliceFrom data e).map fun r => (u', r)

/-! ## Query -/

/-- The errors of parsing a query. -/
inductive QErr
  | badKey
  | unescape (e : Err)
deriving DecidableEq, Repr

/-- net/uri/uri-query.go:16-18: `none` is the nil map; a key of the map has its list of values. -/
abbrev Values := Bytes → Option (List Bytes)

structure Query where
  list : Option Values

/-- `q.list[key]`: nil for a key that is not there, and for the nil map. -/
def Query.lookup (q : Query) (key : Bytes) : List Bytes :=
  match q.list with
  | none => []
  | some m => (m key).getD []

/-- net/uri/uri-query.go:37-46 -/
def Query.get (q : Query) (key : Bytes) : Bytes :=
  match q.lookup key with
  | [] => []
  | v :: _ => v

def Values.put (m : Values) (key : Bytes) (vs : List Bytes) : Values :=
  fun k => if k = key then some vs else m k

/-- net/uri/uri-query.go:49-51: writing to the nil map panics. -/
def Query.set (q : Query) (key value : Bytes) : Option Query :=
  q.list.map fun m => ⟨some (m.put key [value])⟩

/-- net/uri/uri-query.go:55-57 -/
def Query.add (q : Query) (key value : Bytes) : Option Query :=
  q.list.map fun m => ⟨some (m.put key ((m key).getD [] ++ [value]))⟩

/-- net/uri/uri-query.go:60-62: deleting from the nil map does nothing. -/
def Query.del (q : Query) (key : Bytes) : Query :=
  ⟨q.list.map fun m => fun k => if k = key then none else m k⟩

/-- net/uri/uri-query.go:65-68 -/
def Query.has (q : Query) (key : Bytes) : Bool :=
  match q.list with
  | none => false
  | some m => (m key).isSome

/-- net/uri/const.go:10: the byte called semicolon. -/
def signSemicolon : Byte := ch ':'

/-- net/uri/uri-query.go:83-109, for one setting: the map and the error afterwards. -/
def oneSetting (m : Values) (err : Option QErr) (setting : Bytes) : Option (Values × Option QErr) :=
  if setting = [] then some (m, err)
  else if indexByte setting signSemicolon ≠ none then some (m, some .badKey)
  else
    match unescape (cutByte setting (ch '=')).1 .queryComponent with
    | none => none
    | some (.error e) => some (m, err.or (some (.unescape e)))
    | some (.ok key) =>
      match unescape (cutByte setting (ch '=')).2 .queryComponent with
      | none => none
      | some (.error e) => some (m, err.or (some (.unescape e)))
      | some (.ok value) => some (m.put key ((m key).getD [] ++ [value]), err)

theorem cutByte_snd_length (s : Bytes) (c : Byte) (h : s ≠ []) :
    (cutByte s c).2.length < s.length := by
  have := List.length_pos_iff.mpr h
  unfold cutByte
  split
  · simpa
  · simp only [List.length_drop]; omega

/-- net/uri/uri-query.go:79-110 -/
def settings (query : Bytes) (m : Values) (err : Option QErr) : Option (Values × Option QErr) :=
  if _h : query = [] then some (m, err)
  else
    match oneSetting m err (cutByte query (ch '&')).1 with
    | none => none
    | some (m', err') => settings (cutByte query (ch '&')).2 m' err'
termination_by query.length
decreasing_by exact cutByte_snd_length query (ch '&') _h

/-- net/uri/uri-query.go:78-112 on an initialised query. -/
def fromString (m : Values) (query : Bytes) : Option (Values × Option QErr) := settings query m none

/-- net/uri/uri-query.go:27-31 -/
def Query.init (query : Bytes) : Option (Query × Option QErr) :=
  (fromString (fun _ => none) query).map fun r => (⟨some r.1⟩, r.2)

/-- net/uri/uri-query.go:124-131: one key with its values, after `buf`. -/
def writeKey (buf : Bytes) (key : Bytes) : List Bytes → Option Bytes
  | [] => some buf
  | v :: vs =>
    match escape key .queryComponent, escape v .queryComponent with
    | some k', some v' =>
      writeKey (buf ++ (if buf.length > 0 then [ch '&'] else []) ++ k' ++ [ch '='] ++ v') key vs
    | _, _ => none

/-- net/uri/uri-query.go:117-134: `order` is the order in which the runtime walks the map. -/
def toString (m : Values) (order : List Bytes) : Option Bytes :=
  order.foldl (fun b k => b.bind fun buf => writeKey buf k ((m k).getD [])) (some [])

end Memar.Uri
