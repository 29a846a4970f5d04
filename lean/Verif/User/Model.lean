import Verif.Identifier.Model

/-!
# Users: user/user-type.go, user/user.go, user/protocol/type.go
-/

namespace Memar.User
open Memar

/-- user/protocol/type.go:14 -/
abbrev UserType := BitVec 8

/-- user/protocol/type.go:17-29 -/
def unset : UserType := 0b00000000
def guest : UserType := 0b00000001
def person : UserType := 0b00000010
def thing : UserType := 0b00000100
def org : UserType := 0b00001000
def app : UserType := 0b00010000
def society : UserType := 0b00100000
def known : UserType := 0b11111110
def all : UserType := 0b11111111

/-- user/user-type.go:8-11 -/
def checkUserType (baseUsers user : UserType) : Bool := user &&& baseUsers == user

/-- user/user.go:41; the receiver is a value, so the caller's identifier (the result) is unchanged. -/
def setSecondElapsed (id : Bytes) (sec : Time.I64) : Option Bytes :=
  (onSliceFrom id 0 fun b => Binary.LE.putUint64 b sec).map fun _copy => id
/-- user/user.go:42; the receiver is a value, so the caller's identifier (the result) is unchanged. -/
def setNanoSecondElapsed (id : Bytes) (nsec : Time.I32) : Option Bytes :=
  (onSliceFrom id 8 fun b => Binary.LE.putUint32 b nsec).map fun _copy => id

/-- user/user.go:13-21; `now` is the clock and `rnd` what the random source yields. -/
def newID (userType : UserType) (now : Time.Time) (rnd : Bytes) : Option Bytes :=
  (setSecondElapsed (List.replicate 16 0#8) now.sec).bind fun id =>
    (setNanoSecondElapsed id now.nsec).bind fun id =>
      (setAt id 12 userType).map fun id => Identifier.readInto id 13 rnd

/-- user/user.go:30 -/
def typ (id : Bytes) : Option UserType := id[8]?
/-- user/user.go:31 and 38 -/
def id (id : Bytes) : Bytes := goCopy (List.replicate 3 0#8) (id.drop 13)
/-- user/user.go:39 -/
def secondElapsed (id : Bytes) : Option Time.I64 := (sliceFrom id 0).bind Binary.LE.uint64
/-- user/user.go:40 -/
def nanoSecondElapsed (id : Bytes) : Option Time.I32 := (sliceFrom id 8).bind Binary.LE.uint32
/-- user/user.go:32-36 -/
def existenceTime (id : Bytes) : Option Time.Time :=
  (secondElapsed id).bind fun s => (nanoSecondElapsed id).map fun n => ⟨s, n⟩

end Memar.User
