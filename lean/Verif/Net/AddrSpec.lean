import Verif.Base

/-!
# Specification of address texts

Independent of the code: decimal and hexadecimal numerals and the joining of parts.
-/

namespace Memar.Net.AddrSpec
open Memar

/-- The decimal numeral of a number. -/
def dec (n : Nat) : Bytes := (Nat.toDigits 10 n).map fun c => BitVec.ofNat 8 c.toNat

/-- Dotted decimal text of an IPv4 address. -/
def dotted (a0 a1 a2 a3 : Byte) : Bytes :=
  dec a0.toNat ++ ch '.' :: dec a1.toNat ++ ch '.' :: dec a2.toNat ++ ch '.' :: dec a3.toNat

/-- The value of a hexadecimal digit. -/
def hexDigit (c : Byte) : Option Nat :=
  let n := c.toNat
  if 48 ≤ n ∧ n ≤ 57 then some (n - 48)
  else if 97 ≤ n ∧ n ≤ 102 then some (n - 87)
  else if 65 ≤ n ∧ n ≤ 70 then some (n - 55)
  else none

/-- The value of a hexadecimal numeral, most significant digit first, after the value `acc`. -/
def hexVal (acc : Nat) : Bytes → Option Nat
  | [] => some acc
  | c :: s => (hexDigit c).bind fun d => hexVal (acc * 16 + d) s

/-- `g` is the text of a 16-bit group with value `v`: one to four hexadecimal digits. -/
def IsGroup (g : Bytes) (v : Nat) : Prop := 1 ≤ g.length ∧ g.length ≤ 4 ∧ hexVal 0 g = some v

/-- The texts of groups with colons between them. -/
def join : List Bytes → Bytes
  | [] => []
  | [g] => g
  | g :: gs => g ++ ch ':' :: join gs

/-- The two bytes of each group, most significant first. -/
def bytesOf : List Nat → Bytes
  | [] => []
  | v :: vs => BitVec.ofNat 8 (v / 256) :: BitVec.ofNat 8 v :: bytesOf vs

/-- The group texts `gs` have the values `vs`. -/
inductive Groups : List Bytes → List Nat → Prop
  | nil : Groups [] []
  | cons {g v gs vs} : IsGroup g v → Groups gs vs → Groups (g :: gs) (v :: vs)

end Memar.Net.AddrSpec
