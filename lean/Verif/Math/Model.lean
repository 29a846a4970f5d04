import Verif.Decimal

/-!
# Packages `math/integer`, `math/boolean`, `math/per`

A method with a pointer receiver that sets `*u` and returns an error is a function from the old
receiver value to the pair (new receiver value, error).

`strconv.FormatUint(x, 10)` and `strconv.FormatInt(x, 10)` are standard-library calls; they are
modelled by their documented meaning, decimal notation (`Decimal.decDigits`).
-/

namespace Memar.Math
open Memar

/-- The error values of math/errors/errors.go used here. -/
inductive Err where
  | emptyValue | outOfRange | badValue
  deriving DecidableEq, Repr

/-- The loop of math/integer/unsigned-8.go:47-62, math/integer/unsigned-16.go:46-61 and math/integer/unsigned-32.go:46-61:
`n` is an accumulator of `w` bits (16, 32, 64), `max` the largest value of the type. -/
def parseLoop {w} (max : BitVec w) : BitVec w → Bytes → Except Err (BitVec w)
  | n, [] => .ok n
  | n, char :: rest =>
    if 48#8 ≤ char ∧ char ≤ 57#8 then
      let numSegment := char - 48
      let n := n * 10
      let n := n + numSegment.setWidth w
      if n > max then .error .outOfRange else parseLoop max n rest
    else .error .badValue

/-- math/integer/unsigned-8.go:36-65 `U8.FromString_Base10` -/
def fromString8 (u : U8) (str : Bytes) : U8 × Option Err :=
  if str = [] then (u, some .emptyValue)
  else if str.length > 3 then (u, some .outOfRange)
  else match parseLoop (w := 16) 255 0 str with
    | .error e => (u, some e)
    | .ok n => (n.setWidth 8, none)

/-- math/integer/unsigned-16.go:36-64 `U16.FromString_Base10` -/
def fromString16 (u : U16) (str : Bytes) : U16 × Option Err :=
  if str = [] then (u, some .emptyValue)
  else if str.length > 5 then (u, some .outOfRange)
  else match parseLoop (w := 32) 65535 0 str with
    | .error e => (u, some e)
    | .ok n => (n.setWidth 16, none)

/-- math/integer/unsigned-32.go:36-64 `U32.FromString_Base10` -/
def fromString32 (u : U32) (str : Bytes) : U32 × Option Err :=
  if str = [] then (u, some .emptyValue)
  else if str.length > 10 then (u, some .outOfRange)
  else match parseLoop (w := 64) 4294967295 0 str with
    | .error e => (u, some e)
    | .ok n => (n.setWidth 32, none)

/-- The loop of math/integer/unsigned-64.go:46-61: the overflow check looks at the product only. -/
def parseLoop64 : U64 → Bytes → Except Err U64
  | num, [] => .ok num
  | num, char :: rest =>
    if 48#8 ≤ char ∧ char ≤ 57#8 then
      let numSegment := char - 48
      let n1 := num * 10
      if n1 < num then .error .outOfRange
      else parseLoop64 (n1 + numSegment.setWidth 64) rest
    else .error .badValue

/-- math/integer/unsigned-64.go:36-65 `U64.FromString_Base10` -/
def fromString64 (u : U64) (str : Bytes) : U64 × Option Err :=
  if str = [] then (u, some .emptyValue)
  else if str.length > 20 then (u, some .outOfRange)
  else match parseLoop64 0 str with
    | .error e => (u, some e)
    | .ok n => (n, none)

/-- math/integer/unsigned-8.go:22-25, math/integer/unsigned-16.go:22-25, math/integer/unsigned-32.go:22-25, math/integer/unsigned-64.go:22-25
`ToString`: `strconv.FormatUint(uint64(*u), 10)` -/
def toString {w} (u : BitVec w) : Bytes := Decimal.decDigits u.toNat

/-- math/integer/signed-8.go:23-26, math/integer/signed-64.go:21-24, math/integer/signed.go:24-27 `ToString`:
`strconv.FormatInt(int64(*s), 10)` -/
def toStringSigned {w} (s : BitVec w) : Bytes :=
  if s.toInt < 0 then bs "-" ++ Decimal.decDigits s.toInt.natAbs else Decimal.decDigits s.toInt.toNat

/-- math/integer/signed-8.go:27-30, math/integer/signed-64.go:25-28, math/integer/signed.go:28-31 `FromString`: the result and the
error of `strconv.ParseInt` are discarded, the receiver is not assigned. -/
def fromStringSigned {w} (s : BitVec w) (_str : Bytes) : BitVec w × Option Err := (s, none)

/-- math/boolean/boolean.go:22-29 `Boolean.ToString` -/
def toStringBool (b : Bool) : Bytes := if b then bs "true" else bs "false"

/-- math/boolean/boolean.go:30-41 `Boolean.FromString`: no error for unknown text -/
def fromStringBool (b : Bool) (str : Bytes) : Bool :=
  if str = bs "true" ∨ str = bs "TRUE" ∨ str = bs "True" then true
  else if str = bs "false" ∨ str = bs "FALSE" ∨ str = bs "False" then false
  else b

/-! ## math/per -/

/-- The body shared by the calculators: `(num * uint64(b)) / d` in 64-bit arithmetic. -/
def perCalc (b num d : U64) : U64 := (num * b) / d

/-- math/per/ten.go:9-11 -/
def perTen (b : U8) (num : U64) : U64 := perCalc (b.setWidth 64) num 10
/-- math/per/cent.go:9-11 -/
def perCent (b : U8) (num : U64) : U64 := perCalc (b.setWidth 64) num 100
/-- math/per/mille.go:9-11 -/
def perMille (b : U16) (num : U64) : U64 := perCalc (b.setWidth 64) num 1000
/-- math/per/myriad.go:9-11 -/
def perMyriad (b : U16) (num : U64) : U64 := perCalc (b.setWidth 64) num 10000
/-- math/per/cent-mille.go:9-11 -/
def perCentMille (b : U32) (num : U64) : U64 := perCalc (b.setWidth 64) num 100000
/-- math/per/million.go:9-11 -/
def perMillion (b : U32) (num : U64) : U64 := perCalc (b.setWidth 64) num 1000000
/-- math/per/billion.go:9-11 -/
def perBillion (b : U32) (num : U64) : U64 := perCalc (b.setWidth 64) num 1000000000
/-- math/per/trillion.go:9-11 (divides by a million) -/
def perTrillion (b : U64) (num : U64) : U64 := perCalc b num 1000000
/-- math/per/quadrillion.go:9-11 (divides by a million) -/
def perQuadrillion (b : U64) (num : U64) : U64 := perCalc b num 1000000

end Memar.Math
