import Verif.Math.Model

/-!
# Packages `math/integer`, `math/float`, `math/boolean`: comparing objects and the general readers

Floating point numbers are their IEEE 754 bits (`BitVec 32`, `BitVec 64`). `strconv.ParseFloat` and `strconv.FormatFloat` are
standard-library calls, parameters: a parser answers the number and whether there was an error (a number is answered also with an
error: 0 for a syntax error, an infinity for a range error).
-/

namespace Memar.Math
open Memar

/-- math/integer/unsigned-8.go:17-19, math/integer/unsigned-16.go:17-19, math/integer/unsigned-32.go:17-19,
math/integer/unsigned-64.go:17-19, math/integer/signed-8.go:16-18, math/integer/signed-64.go:16-18 `Equal` -/
def equalInt {w} (a b : BitVec w) : Bool := a == b

/-- math/boolean/boolean.go:17-19 `Equal` -/
def equalBool (a b : Bool) : Bool := a == b

/-- math/integer/signed.go:13-16 `Signed` -/
structure Signed where
  number : U64
  bitSize : U64
deriving DecidableEq, Repr

/-- math/integer/signed.go:19-21 `Equal`: `*s == with` compares both fields -/
def Signed.equal (a b : Signed) : Bool := a.number == b.number && a.bitSize == b.bitSize

/-- math/integer/unsigned-8.go:26-29 `FromString` -/
def read8 (u : U8) (str : Bytes) : U8 × Option Err := fromString8 u str
/-- math/integer/unsigned-16.go:26-29 `FromString` -/
def read16 (u : U16) (str : Bytes) : U16 × Option Err := fromString16 u str
/-- math/integer/unsigned-32.go:26-29 `FromString` -/
def read32 (u : U32) (str : Bytes) : U32 × Option Err := fromString32 u str
/-- math/integer/unsigned-64.go:26-29 `FromString` -/
def read64 (u : U64) (str : Bytes) : U64 × Option Err := fromString64 u str

/-- math/integer/unsigned-8.go:31-33, math/integer/unsigned-16.go:31-33, math/integer/unsigned-32.go:31-33,
math/integer/unsigned-64.go:31-33 `FromString_UnknownBase`: an empty body -/
def readUnknownBase {w} (u : BitVec w) (_str : Bytes) : BitVec w × Option Err := (u, none)

/-! ## floating point -/

/-- IEEE 754: the bits are a sign, `e` bits of exponent and `m` bits of mantissa. -/
def expOf (e m : Nat) (x : BitVec (1 + e + m)) : Nat := x.toNat / 2 ^ m % 2 ^ e
/-- IEEE 754: the mantissa. -/
def manOf (e m : Nat) (x : BitVec (1 + e + m)) : Nat := x.toNat % 2 ^ m
/-- IEEE 754: the sign. -/
def negOf (e m : Nat) (x : BitVec (1 + e + m)) : Bool := decide (2 ^ (e + m) ≤ x.toNat)
/-- IEEE 754: not a number. -/
def isNaN (e m : Nat) (x : BitVec (1 + e + m)) : Bool := expOf e m x = 2 ^ e - 1 ∧ manOf e m x ≠ 0
/-- IEEE 754: a zero of either sign. -/
def isZero (e m : Nat) (x : BitVec (1 + e + m)) : Bool := expOf e m x = 0 ∧ manOf e m x = 0

/-- math/float/float-32.go:16-18, math/float/float-64.go:16-18 `Equal`: Go's `==` on floating point numbers, as the processor does
it: nothing equals a NaN, the two zeros are equal, and otherwise the bits decide. -/
def equalFloat (e m : Nat) (a b : BitVec (1 + e + m)) : Bool :=
  !isNaN e m a && !isNaN e m b && (a == b || (isZero e m a && isZero e m b))

/-- `F32` (math/float/float-32.go:13): 8 bits of exponent, 23 of mantissa. -/
abbrev equalF32 : BitVec 32 → BitVec 32 → Bool := equalFloat 8 23
/-- `F64` (math/float/float-64.go:13): 11 bits of exponent, 52 of mantissa. -/
abbrev equalF64 : BitVec 64 → BitVec 64 → Bool := equalFloat 11 52

/-- math/float/float-32.go:21-24, math/float/float-64.go:21-24 `ToString` -/
def toStringFloat {w} (format : BitVec w → Bytes) (f : BitVec w) : Bytes := format f

/-- math/float/float-32.go:25-30, math/float/float-64.go:25-30 `FromString`: the error of the parser is dropped and its number
assigned all the same -/
def fromStringFloat {w} (parse : Bytes → BitVec w × Bool) (_f : BitVec w) (str : Bytes) : BitVec w × Option Err :=
  ((parse str).1, none)

end Memar.Math
