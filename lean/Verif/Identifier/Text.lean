import Verif.Identifier.Model

/-!
# Texts and random values of the short and long identifiers, and the generators of RFC 4122 that make nothing
-/

namespace Memar.Identifier
open Memar

/-- identifier/uuid-time-16byte/uuid.go:34-37 `ToString`; `enc` is `base64.RawURLEncoding`. -/
def U16B.toString (enc : Bytes → Bytes) (id : Bytes) : Bytes := enc id
/-- identifier/uuid-time-16byte/uuid.go:38-41 `FromString`: the identifier afterwards and whether there is an error. -/
def U16B.fromString (id _s : Bytes) : Bytes × Bool := (id, false)

/-- identifier/32byte/uuid.go:33-36 `ToString` -/
def U32B.toString (enc : Bytes → Bytes) (id : Bytes) : Bytes := enc id
/-- identifier/32byte/uuid.go:37-40 `FromString` -/
def U32B.fromString (id _s : Bytes) : Bytes × Bool := (id, false)
/-- identifier/32byte/uuid.go:78-84 `NewRandom`; `rnd` is what the random source yields. -/
def U32B.newRandom (id rnd : Bytes) : Bytes := readInto id 0 rnd
/-- identifier/32byte/uuid.go:72-74 `NewHashString` -/
def U32B.newHashString (sum : Bytes → Bytes) (data : Bytes) : Bytes := U32B.newHash sum data

/-- identifier/8byte/uuid.go:31-34 `ToString` -/
def U8B.toString (enc : Bytes → Bytes) (id : Bytes) : Bytes := enc id
/-- identifier/8byte/uuid.go:35-38 `FromString` -/
def U8B.fromString (id _s : Bytes) : Bytes × Bool := (id, false)
/-- identifier/8byte/uuid.go:68-74 `NewRandom` -/
def U8B.newRandom (id rnd : Bytes) : Bytes := readInto id 0 rnd
/-- identifier/8byte/uuid.go:23 `IDasString` -/
def U8B.idAsString (enc : Bytes → Bytes) (id : Bytes) : Option Bytes := (sliceTo id 8).map enc

namespace Rfc4122

/-- identifier/rfc-4122/uuid.go:23-25 `V1`; `now` and `mac` are what version 1 is to be made of. -/
def v1 (_now _mac : Bytes) : Bytes := List.replicate 16 0#8
/-- identifier/rfc-4122/uuid.go:43-45 `V5` -/
def v5 (_nameSpace _value : Bytes) : Bytes := List.replicate 16 0#8
/-- identifier/rfc-4122/uuid.go:48-50 and identifier/rfc-4122/utility.go:11-13 `Equal` -/
def equal (u v : Bytes) : Bool := u == v

end Rfc4122

end Memar.Identifier
