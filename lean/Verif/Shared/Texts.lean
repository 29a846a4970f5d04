import Verif.Shared.Mem
import Verif.Json.Model
import Verif.Uri.Model
import Verif.File.Model

/-!
# Texts decoded from bytes in shared memory (`json`, `net/uri`, `file`), C286

The models of these packages give every text bytes of its own. Here a text is a header into the memory it was decoded from, when the
code converts without copying, or into a new array, when it copies.
-/

namespace Memar.Shared
open Memar.Convert

/-- Go `s[i:]` of a slice in memory, for `i` up to its length. -/
def sFrom (s : SliceHeader) (i : Nat) : SliceHeader := ⟨s.data + i, s.len - i, s.cap - i⟩

/-- Go `s[:j]` of a slice in memory, for `j` up to its length. -/
def sTo (s : SliceHeader) (j : Nat) : SliceHeader := ⟨s.data, j, s.cap⟩

/-- Go `string(s)`: a copy. -/
def copyText (h : Heap) (s : SliceHeader) : Heap × StringHeader :=
  ((fresh h (bytesOf h s) 0).1, ⟨(fresh h (bytesOf h s) 0).2.data, (fresh h (bytesOf h s) 0).2.len⟩)

/-! ## `json` -/

/-- json/decode.go:83-90 `TrimToStringStart`: the buffer. -/
def trimAt (h : Heap) (b : SliceHeader) : SliceHeader :=
  match indexByte (bytesOf h b) (ch '"') with
  | some i => sFrom b (i + 1)
  | none => b

/-- json/decode.go:124-137 `DecodeKey`: the buffer and the key, which is the bytes of the buffer themselves. -/
def keyAt (h : Heap) (b : SliceHeader) : SliceHeader × StringHeader :=
  let b := trimAt h b
  match indexByte (bytesOf h b) (ch '"') with
  | none => (b, ⟨0, 0⟩)
  | some loc =>
    let rest := sFrom b (loc + 1)
    match indexByte (bytesOf h rest) (ch ':') with
    | none => (rest, unsafeByteSliceToString (sTo b loc))
    | some l => (sFrom rest (l + 1), unsafeByteSliceToString (sTo b loc))

/-- json/decode-minified.go:20-26 `DecodeKey` of `DecoderMinified` -/
def minKeyAt (h : Heap) (b : SliceHeader) : Option (SliceHeader × StringHeader) :=
  if 2 ≤ b.len then
    match indexByte (bytesOf h (sFrom b 2)) (ch '"') with
    | none => none
    | some loc =>
      if loc + 2 ≤ (sFrom b 2).len then
        some (sFrom (sFrom b 2) (loc + 2), unsafeByteSliceToString (sTo (sFrom b 2) loc))
      else none
  else none

/-- json/decode.go:248-259: `DecodeString` after the null check; the text is a copy. -/
def stringAt (h : Heap) (b : SliceHeader) : Heap × SliceHeader × Option StringHeader :=
  let b := trimAt h b
  match indexByte (bytesOf h b) (ch '"') with
  | none => (h, b, none)
  | some loc => ((copyText h (sTo b loc)).1, sFrom b (loc + 1), some (copyText h (sTo b loc)).2)

/-- json/decode-minified.go:120-131 `DecodeString` of `DecoderMinified`; the text is a copy. -/
def minStringAt (h : Heap) (b : SliceHeader) : Option (Heap × SliceHeader × StringHeader) :=
  match indexByte (bytesOf h b) (ch '"') with
  | some loc => some ((copyText h (sTo b loc)).1, sFrom b (loc + 1), (copyText h (sTo b loc)).2)
  | none =>
    if b.len = 0 then none
    else some ((copyText h (sTo b (b.len - 1))).1, sFrom b b.len, (copyText h (sTo b (b.len - 1))).2)

/-- json/decode-unsafe.go:23-36: `DecodeString` of `DecoderUnsafe` after the null check; the text is the bytes of the buffer themselves. Without a
first quote `loc + 1` is 0 and nothing is removed, as in `trimAt`. -/
def unsafeStringAt (h : Heap) (b : SliceHeader) : SliceHeader × Option StringHeader :=
  let b := trimAt h b
  match indexByte (bytesOf h b) (ch '"') with
  | none => (b, none)
  | some loc => (sFrom b (loc + 1), some (unsafeByteSliceToString (sTo b loc)))

/-- json/decode-minified-unsafe.go:18-31 `DecodeString` of `DecoderUnsafeMinified`: an empty buffer panics, and the text is the bytes of the buffer
themselves. -/
def unsafeMinStringAt (h : Heap) (b : SliceHeader) : Option (SliceHeader × Option StringHeader) :=
  if 1 ≤ b.len then
    match indexByte (bytesOf h (sFrom b 1)) (ch '"') with
    | none => some (sFrom b 1, none)
    | some loc => some (sFrom (sFrom b 1) (loc + 1), some (unsafeByteSliceToString (sTo (sFrom b 1) loc)))
  else none

/-! ## `file` -/

/-- `filepath.Split` answers parts of the text it is given. -/
def splitAt (h : Heap) (s : StringHeader) : StringHeader × StringHeader :=
  match lastIndexByte (textOf h s) (ch '/') with
  | none => (⟨s.data, 0⟩, s)
  | some i => (⟨s.data, i + 1⟩, ⟨s.data + (i + 1), s.len - (i + 1)⟩)

/-- file/uri.go:61-68 `Unmarshal`: the path and the name. -/
def fileUnmarshal (h : Heap) (data : SliceHeader) : StringHeader × StringHeader := splitAt h (unsafeByteSliceToString data)

/-! ## `net/uri` -/

/-- net/uri/uri.go:18-27, with the field `authority` of net/uri/uri-authority.go:15-20 -/
structure LUri where
  uri : StringHeader := ⟨0, 0⟩
  raw : Option SliceHeader := none
  scheme : StringHeader := ⟨0, 0⟩
  authority : StringHeader := ⟨0, 0⟩
  path : StringHeader := ⟨0, 0⟩
  query : StringHeader := ⟨0, 0⟩
  fragment : StringHeader := ⟨0, 0⟩
deriving DecidableEq, Repr

/-- Go `s[i:j]` of a string in memory -/
def sub (s : StringHeader) (i j : Nat) : Option StringHeader := if i ≤ j ∧ j ≤ s.len then some ⟨s.data + i, j - i⟩ else none

/-- The local variables of net/uri/uri.go:177. -/
structure LScan where
  u : LUri
  aS : Nat := 0
  pS : Nat := 0
  qI : Nat := 0
  nI : Nat := 0

/-- net/uri/uri.go:190-198 -/
def lSlash (s : StringHeader) (origin : Bool) (i : Nat) (st : LScan) : Option LScan :=
  if st.aS ≠ 0 ∧ st.pS = 0 then
    (sub s st.aS i).map fun a => { st with pS := i, u := { st.u with authority := a } }
  else if origin = false ∧ st.pS = 0 ∧ i ≠ 0 then
    (sub s 0 i).map fun a => { st with pS := i, u := { st.u with authority := a } }
  else some st

/-- net/uri/uri.go:199-204 -/
def lQuestion (s : StringHeader) (i : Nat) (st : LScan) : Option LScan :=
  if st.qI = 0 then (sub s st.pS i).map fun p => { st with qI := i, u := { st.u with path := p } } else some st

/-- net/uri/uri.go:205-213 -/
def lNumber (s : StringHeader) (i : Nat) (st : LScan) : Option LScan :=
  if st.nI = 0 then
    if st.qI = 0 then (sub s st.pS i).map fun p => { st with nI := i, u := { st.u with path := p } }
    else (sub s (st.qI + 1) i).map fun q => { st with nI := i, u := { st.u with query := q } }
  else some st

/-- net/uri/uri.go:181-218 -/
def lScan (h : Heap) (s : StringHeader) (origin : Bool) (i : Nat) (st : LScan) : Option (LScan × Nat) :=
  match _h : (textOf h s)[i]? with
  | none => some (st, i)
  | some c =>
    if c = ch ':' then
      if st.aS = 0 then lScan h s origin (i + 3) { st with aS := i + 3, u := { st.u with scheme := ⟨s.data, i⟩ } }
      else lScan h s origin (i + 1) st
    else if c = ch '/' then
      match lSlash s origin i st with
      | none => none
      | some st' => lScan h s origin (i + 1) st'
    else if c = ch '?' then
      match lQuestion s i st with
      | none => none
      | some st' => lScan h s origin (i + 1) st'
    else if c = ch '#' then
      match lNumber s i st with
      | none => none
      | some st' => lScan h s origin (i + 1) st'
    else if c = ch ' ' then some (st, i)
    else lScan h s origin (i + 1) st
termination_by (textOf h s).length - i
decreasing_by
  all_goals
    have := (List.getElem?_eq_some_iff.mp _h).1
    omega

/-- net/uri/uri.go:221-223 -/
def lEndPath (s : StringHeader) (st : LScan) (e : Nat) (u : LUri) : Option LUri :=
  if st.qI = 0 ∧ st.nI = 0 then (sub s st.pS e).map fun p => { u with path := p } else some u

/-- net/uri/uri.go:224-226 -/
def lEndFragment (s : StringHeader) (st : LScan) (e : Nat) (u : LUri) : Option LUri :=
  if st.nI ≠ 0 then (sub s (st.nI + 1) e).map fun f => { u with fragment := f } else some u

/-- net/uri/uri.go:227-229 -/
def lEndQuery (s : StringHeader) (st : LScan) (e : Nat) (u : LUri) : Option LUri :=
  if st.qI ≠ 0 ∧ st.nI = 0 then (sub s (st.qI + 1) e).map fun q => { u with query := q } else some u

/-- net/uri/uri.go:220-229 -/
def lFinish (s : StringHeader) (st : LScan) (e : Nat) : Option LUri :=
  ((lEndPath s st e st.u).bind (lEndFragment s st e)).bind (lEndQuery s st e)

/-- net/uri/uri.go:168-235: lines 232 and 233 make the text and the bytes of the URI parts of the given text. -/
def lFromString (h : Heap) (u : LUri) (s : StringHeader) : Option (LUri × Nat) :=
  match (textOf h s)[0]? with
  | none => none
  | some c =>
    if c = ch '*' then (sub s 0 1).map fun t => ({ u with uri := t, raw := some (unsafeStringToByteSlice t) }, 1)
    else
      match lScan h s (decide (c = ch '/')) 0 { u := u } with
      | none => none
      | some (st, e) =>
        match lFinish s st e with
        | none => none
        | some u' => (sub s 0 e).map fun t => ({ u' with uri := t, raw := some (unsafeStringToByteSlice t) }, e)

/-- net/uri/uri.go:113-118 `Unmarshal` -/
def LUri.unmarshal (h : Heap) (u : LUri) (b : SliceHeader) : Option LUri :=
  (lFromString h { u with uri := unsafeByteSliceToString b, raw := some b } (unsafeByteSliceToString b)).map (·.1)

/-- net/uri/uri.go:121-126 `UnmarshalFrom` -/
def LUri.unmarshalFrom (h : Heap) (u : LUri) (data : SliceHeader) : Option (LUri × SliceHeader) :=
  match lFromString h u (unsafeByteSliceToString data) with
  | none => none
  | some (u', e) => if e ≤ data.len then some (u', sFrom data e) else none

/-- The appends of net/uri/uri.go:146-159 in turn: each reads the memory as the ones before left it. -/
def LUri.pieces (u : LUri) : List (Heap → Bytes) :=
  (if u.scheme.len ≠ 0 then [fun h => textOf h u.scheme, fun _ => bs "://"] else []) ++
    [fun h => textOf h u.authority, if u.path.len = 0 then fun _ => [ch '/'] else fun h => textOf h u.path] ++
    (if u.query.len ≠ 0 then [fun _ => [ch '?'], fun h => textOf h u.query] else [])

/-- Several appends in turn. -/
def appendAll (extra : Nat → Nat → Nat) : Heap → Option SliceHeader → List (Heap → Bytes) → Heap × Option SliceHeader
  | h, s, [] => (h, s)
  | h, s, p :: ps => appendAll extra (append extra h s (p h)).1 (append extra h s (p h)).2 ps

/-- net/uri/uri.go:144-165: the text is appended to the packet, and the URI keeps that part of the packet as its own text. A packet that is nil
is `none`; the text is never empty, so the result is not nil. -/
def LUri.marshalTo' (extra : Nat → Nat → Nat) (h : Heap) (u : LUri) (packet : Option SliceHeader) : Option (Heap × SliceHeader × LUri) :=
  (appendAll extra h packet u.pieces).2.map fun r =>
    ((appendAll extra h packet u.pieces).1, r,
      { u with raw := some (sFrom r (shown h packet).length), uri := unsafeByteSliceToString (sFrom r (shown h packet).length) })

/-- net/uri/uri.go:105-110 `MarshalTo` -/
def LUri.marshalTo (extra : Nat → Nat → Nat) (h : Heap) (u : LUri) (packet : Option SliceHeader) : Option (Heap × Option SliceHeader × LUri) :=
  match u.raw with
  | none => (u.marshalTo' extra h packet).map fun r => (r.1, some r.2.1, r.2.2)
  | some b => some ((append extra h packet (bytesOf h b)).1, (append extra h packet (bytesOf h b)).2, u)

/-- net/uri/uri.go:96-102 `Marshal`: the URI's own bytes; line 98 makes an array of the size `n` for them. -/
def LUri.marshal (extra : Nat → Nat → Nat) (h : Heap) (u : LUri) : Option (Heap × SliceHeader × LUri) :=
  match u.raw with
  | none =>
    let n := 4 + (u.scheme.len + u.authority.len + u.path.len + u.query.len + u.fragment.len)
    (u.marshalTo' extra (fresh h [] n).1 (some (fresh h [] n).2)).map fun r => (r.1, sFrom r.2.1 0, r.2.2)
  | some b => some (h, b, u)

end Memar.Shared
