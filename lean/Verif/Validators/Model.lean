import Verif.Base

/-!
# Model of `validators/luhn-algorithm.go` and `validators/text.go`

`int` is a mathematical integer; bytes wrap.
-/

namespace Memar.Validators

/-- validators/luhn-algorithm.go:12-22, one iteration: whether this digit is doubled, and the
checksum so far. -/
def luhnStep (st : Bool × Nat) (c : Byte) : Bool × Nat :=
  let digit := (c - ch '0').toNat
  let digit' := if st.1 then (if digit * 2 > 9 then digit * 2 % 10 + 1 else digit * 2) else digit
  (!st.1, st.2 + digit')

/-- validators/luhn-algorithm.go:7-24: the loop runs from the last byte to the first. -/
def luhnAlgorithm (pan : Bytes) : Bool := (pan.reverse.foldl luhnStep (false, 0)).2 % 10 == 0

/-- validators/luhn-algorithm.go:35-43: the value added for the byte at index `i`. -/
def checksumDigit (i : Nat) (c : Byte) : Byte :=
  let d := c - ch '0'
  if i % 2 = 0 then (if d <<< 1 > 9#8 then d <<< 1 - 9#8 else d <<< 1) else d

/-- validators/luhn-algorithm.go:33-45: the sum over `buf`, whose first byte has index `i`.
(The order of a sum does not matter.) -/
def checksumSum (i : Nat) : Bytes → Nat
  | [] => 0
  | c :: t => (checksumDigit i c).toNat + checksumSum (i + 1) t

/-- validators/luhn-algorithm.go:28-50: an empty slice panics. -/
def luhnAlgorithmChecksum (num : Bytes) : Option (Bool × Byte) :=
  match num.getLast? with
  | none => none
  | some last =>
    let checksum := BitVec.ofNat 8 ((10 - checksumSum 0 num.dropLast % 10) % 10 + 48)
    some (checksum == last, checksum)

/-- The two errors of validators/text.go. -/
inductive TextErr
  | lack
  | overflow
deriving DecidableEq, Repr

/-- validators/text.go:9-17 -/
def validateTextLength (t : Bytes) (min max : Int) : Option TextErr :=
  if (t.length : Int) < min then some .lack
  else if max ≠ 0 ∧ (t.length : Int) > max then some .overflow
  else none

end Memar.Validators
