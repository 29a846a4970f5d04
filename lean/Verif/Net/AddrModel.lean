import Verif.Base

/-!
# Text forms of IPv4 and IPv6 addresses: net/ipv4/addr.go, net/ipv6/addr.go

`none` is a panic.  The parsers always return a nil error (the error assignments are comments in the
code), so only the address they leave behind is modelled.
-/

namespace Memar.Net

namespace Ipv4Addr
open Memar

/-- net/ipv4/addr.go:76-90; the result is the buffer and the number of bytes written. -/
def ubtoa (dst : Bytes) (start : Nat) (v : Byte) : Option (Bytes × Nat) :=
  if v < 10#8 then
    (setAt dst start (v + 48#8)).map fun d => (d, 1)
  else if v < 100#8 then
    (setAt dst (start + 1) (v % 10#8 + 48#8)).bind fun d =>
    (setAt d start (v / 10#8 + 48#8)).map fun d => (d, 2)
  else
    (setAt dst (start + 2) (v % 10#8 + 48#8)).bind fun d =>
    (setAt d (start + 1) ((v / 10#8) % 10#8 + 48#8)).bind fun d =>
    (setAt d start (v / 100#8 + 48#8)).map fun d => (d, 3)

/-- One octet and the dot after it: net/ipv4/addr.go:26-28, 30-32, 34-36. -/
def octetDot (b : Bytes) (n : Nat) (v : Byte) : Option (Bytes × Nat) :=
  (ubtoa b n v).bind fun (b, k) => (setAt b (n + k) (ch '.')).map fun b => (b, n + k + 1)

/-- net/ipv4/addr.go:21-40; an address is an array of four bytes. -/
def toString (a0 a1 a2 a3 : Byte) : Option Bytes :=
  (octetDot (List.replicate 15 0#8) 0 a0).bind fun (b, n) =>
  (octetDot b n a1).bind fun (b, n) =>
  (octetDot b n a2).bind fun (b, n) =>
  (ubtoa b n a3).bind fun (b, k) =>
  sliceTo b (n + k)

/-- net/ipv4/addr.go:96 -/
def big : Nat := 0xFFFFFF

/-- net/ipv4/addr.go:94-109: the loop, with the characters not yet seen. -/
def dtoiLoop (n i : Nat) : Bytes → Nat × Nat × Bool
  | [] => if i = 0 then (0, 0, false) else (n, i, true)
  | c :: s =>
    if 48#8 ≤ c ∧ c ≤ 57#8 then
      if n * 10 + (c - 48#8).toNat ≥ big then (big, i, false)
      else dtoiLoop (n * 10 + (c - 48#8).toNat) (i + 1) s
    else if i = 0 then (0, 0, false) else (n, i, true)

/-- net/ipv4/addr.go:94-109 -/
def dtoi (s : Bytes) : Nat × Nat × Bool := dtoiLoop 0 0 s

/-- net/ipv4/addr.go:54-64: one octet; `none` in the result is the early return. -/
def octet (s : Bytes) : Option (Byte × Bytes) :=
  if (dtoi s).2.2 = false ∨ (dtoi s).1 > 0xFF then none
  else if (dtoi s).2.1 > 1 ∧ s.head? = some 48#8 then none
  else some (BitVec.ofNat 8 (dtoi s).1, s.drop (dtoi s).2.1)

/-- net/ipv4/addr.go:43-53: the text at the beginning of an octet; `none` is the early return. -/
def separator (i : Nat) (s : Bytes) : Option Bytes :=
  match s with
  | [] => none
  | c :: r => if i > 0 then (if c = ch '.' then some r else none) else some s

/-- net/ipv4/addr.go:42-65: the octets from number `i` on; `fuel` counts the octets left. -/
def fromStringLoop (addr : Bytes) (i : Nat) (s : Bytes) : Nat → Bytes
  | 0 => addr
  | fuel + 1 =>
    match separator i s with
    | none => addr
    | some s =>
      match octet s with
      | none => addr
      | some (v, s) => fromStringLoop (addr.set i v) (i + 1) s fuel

/-- net/ipv4/addr.go:41-71: the address afterwards. -/
def fromString (addr : Bytes) (s : Bytes) : Bytes := fromStringLoop addr 0 s 4

end Ipv4Addr

namespace Ipv6Addr
open Memar

/-- net/ipv6/addr.go:58-61: the end of the run of zero groups that begins at group `j`. -/
def runEnd (z : List Bool) (j : Nat) : Nat := j + ((z.drop j).takeWhile id).length

/-- net/ipv6/addr.go:54-67: the search for the longest run of zero groups.  `z` tells for each of
the eight 16-bit groups whether it is zero; positions are in groups instead of bytes. -/
def longestRun (z : List Bool) (i : Nat) (e : Int × Int) : Nat → Int × Int
  | 0 => e
  | fuel + 1 =>
    if i < 8 then
      if runEnd z i > i ∧ ((runEnd z i : Int) - i) * 2 > (e.2 - e.1) then
        longestRun z (runEnd z i + 1) (2 * (i : Int), 2 * (runEnd z i : Int)) fuel
      else longestRun z (i + 1) e fuel
    else e

/-- net/ipv6/addr.go:54-72 -/
def ellipsis (z : List Bool) : Int × Int :=
  if (longestRun z 0 (-1, -1) 8).2 - (longestRun z 0 (-1, -1) 8).1 ≤ 2 then (-1, -1)
  else longestRun z 0 (-1, -1) 8

/-- The test of net/ipv6/addr.go:59 for each of the eight groups. -/
def zeroGroups : Bytes → List Bool
  | a :: b :: r => (a == 0#8 && b == 0#8) :: zeroGroups r
  | _ => []

/-- net/ipv6/addr.go:75 -/
def hexTable : Bytes := bs "0123456789abcdef"

/-- net/ipv6/addr.go:92-93 -/
def putGroup (addr b : Bytes) (i : Nat) : Option Bytes :=
  (setAt b (i * 2) (hexTable.getD (addr.getD i 0#8 >>> 4).toNat 0#8)).bind fun b =>
  setAt b (i * 2 + 1) (hexTable.getD (addr.getD (i + 1) 0#8 &&& 0x0f#8).toNat 0#8)

/-- net/ipv6/addr.go:82-94: the printing loop; `e` is the run to leave out. -/
def printLoop (addr : Bytes) (e : Int × Int) (b : Bytes) (i : Nat) : Nat → Option Bytes
  | 0 => some b
  | fuel + 1 =>
    if i < 16 then
      if (i : Int) = e.1 then
        if e.2 ≥ 16 then some (b ++ [ch ':', ch ':'])
        else (putGroup addr (b ++ [ch ':', ch ':']) e.2.toNat).bind fun b =>
          printLoop addr e b (e.2.toNat + 2) fuel
      else
        (putGroup addr (if i > 0 then b ++ [ch ':'] else b) i).bind fun b =>
          printLoop addr e b (i + 2) fuel
    else some b

/-- net/ipv6/addr.go:53-96 -/
def toString (addr : Bytes) : Option Bytes := printLoop addr (ellipsis (zeroGroups addr)) [] 0 8

/-- net/ipv6/addr.go:180-208: the loop of `xtoi`, with the characters not yet seen. -/
def xtoiLoop (n i : Nat) : Bytes → Nat × Nat × Bool
  | [] => if i = 0 then (0, i, false) else (n, i, true)
  | c :: s =>
    if 48#8 ≤ c ∧ c ≤ 57#8 then
      if n * 16 + (c - 48#8).toNat ≥ 0xFFFFFF then (0, i, false)
      else xtoiLoop (n * 16 + (c - 48#8).toNat) (i + 1) s
    else if 97#8 ≤ c ∧ c ≤ 102#8 then
      if n * 16 + ((c - 97#8).toNat + 10) ≥ 0xFFFFFF then (0, i, false)
      else xtoiLoop (n * 16 + ((c - 97#8).toNat + 10)) (i + 1) s
    else if 65#8 ≤ c ∧ c ≤ 70#8 then
      if n * 16 + ((c - 65#8).toNat + 10) ≥ 0xFFFFFF then (0, i, false)
      else xtoiLoop (n * 16 + ((c - 65#8).toNat + 10)) (i + 1) s
    else if i = 0 then (0, i, false) else (n, i, true)

/-- net/ipv6/addr.go:180-208 -/
def xtoi (s : Bytes) : Nat × Nat × Bool := xtoiLoop 0 0 s

/-- How the parse loop ends: by an early return, or at the checks after the loop. -/
inductive Parsed
  | early (addr : Bytes)
  | done (addr : Bytes) (i : Nat) (ellipsis : Option Nat) (rest : Bytes)
deriving DecidableEq, Repr

/-- net/ipv6/addr.go:116-151: the parse loop from byte `i` on.  `addr.set` stands for the array
stores `addr[i]`, `addr[i+1]`, which are in range because `i < 16` is even. -/
def parseLoop (addr : Bytes) (i : Nat) (e : Option Nat) (s : Bytes) : Nat → Parsed
  | 0 => .done addr i e s
  | fuel + 1 =>
    if i < 16 then
      if (xtoi s).2.2 = false ∨ (xtoi s).1 > 0xFFFF then .early addr
      else
        match s.drop (xtoi s).2.1 with
        | [] => .done (store addr i (xtoi s).1) (i + 2) e []
        | c :: r =>
          if c ≠ ch ':' ∨ r = [] then .early (store addr i (xtoi s).1)
          else if r.head? = some (ch ':') then
            if e.isSome then .early (store addr i (xtoi s).1)
            else if r.tail = [] then .done (store addr i (xtoi s).1) (i + 2) (some (i + 2)) []
            else parseLoop (store addr i (xtoi s).1) (i + 2) (some (i + 2)) r.tail fuel
          else parseLoop (store addr i (xtoi s).1) (i + 2) e r fuel
    else .done addr i e s
where
  /-- net/ipv6/addr.go:124-125 -/
  store (addr : Bytes) (i n : Nat) : Bytes :=
    (addr.set i (BitVec.ofNat 8 (n / 256))).set (i + 1) (BitVec.ofNat 8 n)

/-- net/ipv6/addr.go:164-166: the loop that moves the `k` bytes from `e` on by `n` places. -/
def moveLoop (addr : Bytes) (n e : Nat) : Nat → Bytes
  | 0 => addr
  | k + 1 => moveLoop (addr.set (e + k + n) (addr.getD (e + k) 0#8)) n e k

/-- net/ipv6/addr.go:167-169: the loop that clears the `k` bytes from `e` on. -/
def zeroLoop (addr : Bytes) (e : Nat) : Nat → Bytes
  | 0 => addr
  | k + 1 => zeroLoop (addr.set (e + k) 0#8) e k

/-- net/ipv6/addr.go:163-169 -/
def expand (addr : Bytes) (i e : Nat) : Bytes :=
  zeroLoop (moveLoop addr (16 - i) e (i - e)) e (16 - i)

/-- net/ipv6/addr.go:153-176 -/
def finish : Parsed → Bytes
  | .early addr => addr
  | .done addr i e rest =>
    if rest ≠ [] then addr
    else if i < 16 then
      match e with
      | none => addr
      | some e => expand addr i e
    else addr

/-- net/ipv6/addr.go:101-176: the address afterwards. -/
def fromString (addr : Bytes) (s : Bytes) : Bytes :=
  if s.take 2 = [ch ':', ch ':'] then
    if s.drop 2 = [] then addr
    else finish (parseLoop addr 0 (some 0) (s.drop 2) 8)
  else finish (parseLoop addr 0 none s 8)

/-- net/ipv6/addr.go:42-48 -/
def fromIPv4 (addr v4 : Bytes) : Bytes :=
  let a := goCopy addr ([0, 0, 0, 0, 0, 0, 0, 0, 0, 0, 0xff, 0xff] : Bytes)
  a.take 12 ++ goCopy (a.drop 12) v4

/-- net/ipv6/addr.go:22 -/
def isUnspecified (a : Bytes) : Bool := a == List.replicate 16 0#8
/-- net/ipv6/addr.go:23 -/
def isLoopback (a : Bytes) : Bool := a == List.replicate 15 0#8 ++ [1#8]
/-- net/ipv6/addr.go:24 -/
def isMulticast (a : Bytes) : Bool := a[0]? == some 0xff#8
/-- net/ipv6/addr.go:25 -/
def isInterfaceLocalMulticast (a : Bytes) : Bool :=
  a[0]? == some 0xff#8 && a[1]?.map (· &&& 0x0f#8) == some 0x01#8
/-- net/ipv6/addr.go:26 -/
def isLinkLocalMulticast (a : Bytes) : Bool :=
  a[0]? == some 0xff#8 && a[1]?.map (· &&& 0x0f#8) == some 0x02#8
/-- net/ipv6/addr.go:27 -/
def isLinkLocalUnicast (a : Bytes) : Bool :=
  a[0]? == some 0xfe#8 && a[1]?.map (· &&& 0xc0#8) == some 0x80#8
/-- net/ipv6/addr.go:34-39 -/
def isGlobalUnicast (a : Bytes) : Bool :=
  !isUnspecified a && !isLoopback a && !isMulticast a && !isLinkLocalUnicast a

end Ipv6Addr
end Memar.Net
