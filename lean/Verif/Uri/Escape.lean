import Verif.Base

/-!
# Package `net/uri`: percent-encoding (escape.go)
-/

namespace Memar.Uri
open Memar

/-- net/uri/escape.go:11-22: the seven named modes; `other` stands for every other `int` (a constant such as 0 is accepted as a mode): no test of the code tells
them apart. -/
inductive Mode where
  | path | pathSegment | host | zone | userPassword | queryComponent | fragment | other
  deriving DecidableEq, Repr

/-- net/uri/escape.go:14 `1 + iota`: the mode that an `int` is. -/
def Mode.ofInt (i : Int) : Mode :=
  if i = 1 then .path else if i = 2 then .pathSegment else if i = 3 then .host else if i = 4 then .zone
  else if i = 5 then .userPassword else if i = 6 then .queryComponent else if i = 7 then .fragment else .other

/-- The errors of net/uri/escape.go:96,105,117,125. -/
inductive Err where
  | invalidURLEscape | invalidHostEscape
  deriving DecidableEq, Repr

/-- A character class written as in a Go `case` list. -/
def isOneOf (c : Byte) (s : String) : Bool := (bs s).contains c

/-- net/uri/escape.go:161 the alphanumeric test -/
def isAlnum (c : Byte) : Bool :=
  (ch 'a' ≤ c && c ≤ ch 'z') || (ch 'A' ≤ c && c ≤ ch 'Z') || (ch '0' ≤ c && c ≤ ch '9')

/-- net/uri/escape.go:185-216 the inner switch on reserved characters; `none` = no case taken
(falls out of the switch). -/
def reservedCase (c : Byte) : Mode → Option Bool
  | .path => some (c == ch '?')
  | .pathSegment => some (c == ch '/' || c == ch ';' || c == ch ',' || c == ch '?')
  | .userPassword => some (c == ch '@' || c == ch '/' || c == ch '?' || c == ch ':')
  | .queryComponent => some true
  | .fragment => some false
  | .host => none
  | .zone => none
  | .other => none

/-- net/uri/escape.go:219-233 the tail of `shouldEscape` -/
def shouldEscapeTail (c : Byte) (mode : Mode) : Bool :=
  if mode = .fragment ∧ isOneOf c "!()*" then false else true

/-- net/uri/escape.go:159-234 `shouldEscape` -/
def shouldEscape (c : Byte) (mode : Mode) : Bool :=
  if isAlnum c then false
  else if (mode = .host ∨ mode = .zone) ∧ isOneOf c "!$&'()*+,;=:[]<>\"" then false
  else if isOneOf c "-_.~" then false
  else if isOneOf c "$&+,/:;=?@" then
    match reservedCase c mode with
    | some r => r
    | none => shouldEscapeTail c mode
  else shouldEscapeTail c mode

/-- net/uri/escape.go:236 `upperhex[i]`, for the indices `c>>4` and `c&15`, which are below 16 -/
def upperhex (i : Byte) : Byte := (bs "0123456789ABCDEF").getD i.toNat 0

/-- net/uri/escape.go:238-248 `ishex` -/
def ishex (c : Byte) : Bool :=
  if ch '0' ≤ c ∧ c ≤ ch '9' then true
  else if ch 'a' ≤ c ∧ c ≤ ch 'f' then true
  else if ch 'A' ≤ c ∧ c ≤ ch 'F' then true
  else false

/-- net/uri/escape.go:250-260 `unhex` -/
def unhex (c : Byte) : Byte :=
  if ch '0' ≤ c ∧ c ≤ ch '9' then c - ch '0'
  else if ch 'a' ≤ c ∧ c ≤ ch 'f' then c - ch 'a' + 10
  else if ch 'A' ≤ c ∧ c ≤ ch 'F' then c - ch 'A' + 10
  else 0

/-- net/uri/escape.go:27-37 the counting loop: (spaceCount, hexCount) -/
def countEsc (mode : Mode) : Bytes → Nat × Nat
  | [] => (0, 0)
  | c :: s =>
    let (sp, hx) := countEsc mode s
    if shouldEscape c mode then
      if c = ch ' ' ∧ mode = .queryComponent then (sp + 1, hx) else (sp, hx + 1)
    else (sp, hx)

/-- net/uri/escape.go:65-77 the bytes one loop iteration writes at `t[j:]` -/
def escByte (mode : Mode) (c : Byte) : Bytes :=
  if c = ch ' ' ∧ mode = .queryComponent then [ch '+']
  else if shouldEscape c mode then [ch '%', upperhex (c >>> 4), upperhex (c &&& 15)]
  else [c]

/-- Writing `out` to consecutive positions of a zeroed buffer of `required` bytes, which panics when
`out` is longer (net/uri/escape.go:43-51, 63-79). -/
def fillBuf (required : Nat) (out : Bytes) : Option Bytes :=
  if out.length ≤ required then some (out ++ List.replicate (required - out.length) 0) else none

/-- net/uri/escape.go:26-80 `Escape` -/
def escape (s : Bytes) (mode : Mode) : Option Bytes :=
  let (spaceCount, hexCount) := countEsc mode s
  if spaceCount = 0 ∧ hexCount = 0 then some s
  else
    let required := s.length + 2 * hexCount
    if hexCount = 0 then
      -- lines 53-61: `copy(t, s)` and then spaces replaced
      some (s.map fun c => if c = ch ' ' then ch '+' else c)
    else fillBuf required (s.flatMap (escByte mode))

/-- net/uri/escape.go:89-128 the checking loop of `Unescape`: (n, hasPlus) or an error -/
def unescapeCheck (mode : Mode) : Bytes → Nat → Bool → Except Err (Nat × Bool)
  | [], n, hasPlus => .ok (n, hasPlus)
  | c :: s, n, hasPlus =>
    if c = ch '%' then
      match s with
      | a :: b :: rest =>
        if !ishex a || !ishex b then .error .invalidURLEscape
        else if mode = .host ∧ unhex a < 8 ∧ ¬ (a = ch '2' ∧ b = ch '5') then .error .invalidURLEscape
        else
          let v := (unhex a <<< 4) ||| unhex b
          if mode = .zone ∧ ¬ (a = ch '2' ∧ b = ch '5') ∧ v ≠ ch ' ' ∧ shouldEscape v .host then
            .error .invalidURLEscape
          else unescapeCheck mode rest (n + 1) hasPlus
      | _ => .error .invalidURLEscape
    else if c = ch '+' then unescapeCheck mode s n (mode == .queryComponent)
    else if (mode = .host ∨ mode = .zone) ∧ c < 0x80 ∧ shouldEscape c mode then .error .invalidHostEscape
    else unescapeCheck mode s n hasPlus

/-- net/uri/escape.go:134-151 the decoding loop of `Unescape`; `none` when `s[i+1]` or `s[i+2]` is out of
range -/
def unescapeLoop (mode : Mode) : Bytes → Option Bytes
  | [] => some []
  | c :: s =>
    if c = ch '%' then
      match s with
      | a :: b :: rest => (unescapeLoop mode rest).map fun t => ((unhex a <<< 4) ||| unhex b) :: t
      | _ => none
    else if c = ch '+' then
      (unescapeLoop mode s).map fun t => (if mode = .queryComponent then ch ' ' else ch '+') :: t
    else (unescapeLoop mode s).map fun t => c :: t

/-- net/uri/escape.go:87-152 `Unescape`: outer `none` = panic; `Grow` at line 135 panics if it is given less than 0 -/
def unescape (s : Bytes) (mode : Mode) : Option (Except Err Bytes) :=
  match unescapeCheck mode s 0 false with
  | .error e => some (.error e)
  | .ok (n, hasPlus) =>
    if n = 0 ∧ !hasPlus then some (.ok s)
    else if s.length < 2 * n then none
    else (unescapeLoop mode s).map .ok

end Memar.Uri
