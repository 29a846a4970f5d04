import Verif.Base

/-!
# Specification of fixed-width integer layouts: base-256 positional notation
-/

namespace Memar.Binary.Spec
open Memar

/-- Value of a byte string, least significant byte first. -/
def leVal : Bytes → Nat
  | [] => 0
  | b :: r => b.toNat + 256 * leVal r

/-- Value of a byte string, most significant byte first. -/
def beVal (l : Bytes) : Nat := leVal l.reverse

/-- The `n` base-256 digits of `v`, least significant first. -/
def leDigits : Nat → Nat → Bytes
  | 0, _ => []
  | n + 1, v => BitVec.ofNat 8 v :: leDigits n (v / 256)

/-- The `n` base-256 digits of `v`, most significant first. -/
def beDigits (n v : Nat) : Bytes := (leDigits n v).reverse

end Memar.Binary.Spec
