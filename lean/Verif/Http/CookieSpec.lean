import Verif.Http.Cookie

/-! # Specification of cookies (RFC 6265) -/

namespace Memar.Http.Spec
open Memar

/-- RFC 6265 section 4.1.1 `cookie-octet`, the five ranges of the grammar. -/
def CookieOctet (b : Byte) : Prop :=
  b.toNat = 0x21 ∨ (0x23 ≤ b.toNat ∧ b.toNat ≤ 0x2B) ∨ (0x2D ≤ b.toNat ∧ b.toNat ≤ 0x3A) ∨
  (0x3C ≤ b.toNat ∧ b.toNat ≤ 0x5B) ∨ (0x5D ≤ b.toNat ∧ b.toNat ≤ 0x7E)

/-- RFC 6265 section 4.1.1 `path-value`: any US-ASCII character except controls or ";". -/
def PathChar (b : Byte) : Prop := 0x20 ≤ b.toNat ∧ b.toNat < 0x7F ∧ b ≠ ch ';'

instance (b : Byte) : Decidable (CookieOctet b) := by unfold CookieOctet; infer_instance
instance (b : Byte) : Decidable (PathChar b) := by unfold PathChar; infer_instance

/-- A letter, a digit or a hyphen. -/
def LDH (b : Byte) : Prop :=
  (97 ≤ b.toNat ∧ b.toNat ≤ 122) ∨ (65 ≤ b.toNat ∧ b.toNat ≤ 90) ∨ (48 ≤ b.toNat ∧ b.toNat ≤ 57) ∨
  b = ch '-'

instance (b : Byte) : Decidable (LDH b) := by unfold LDH; infer_instance

/-- The pieces of a name between its dots. -/
def labels : Bytes → List Bytes
  | [] => [[]]
  | b :: r =>
    if b = ch '.' then [] :: labels r
    else match labels r with
      | l :: ls => (b :: l) :: ls
      | [] => [[b]]

/-- A host-name label: 1 to 63 letters, digits or hyphens, no hyphen at either end. -/
def ValidLabel (l : Bytes) : Prop :=
  1 ≤ l.length ∧ l.length ≤ 63 ∧ (∀ b ∈ l, LDH b) ∧ l.head? ≠ some (ch '-') ∧ l.getLast? ≠ some (ch '-')

instance (l : Bytes) : Decidable (ValidLabel l) := by unfold ValidLabel; infer_instance

/-- A host name. -/
def ValidDomain (d : Bytes) : Prop := ∀ l ∈ labels d, ValidLabel l

/-- A cookie's text: `name=value`. -/
def cookieText (c : Cookie) : Bytes := c.name ++ ch '=' :: c.value

/-- A `Cookie` header line: the cookies separated by "; ". -/
def cookiesText : List Cookie → Bytes
  | [] => []
  | [c] => cookieText c
  | c :: cs => cookieText c ++ bs "; " ++ cookiesText cs

/-- The cookies the text form can carry. -/
def Cookie.Plain (c : Cookie) : Prop :=
  c.name ≠ [] ∧ ch '=' ∉ c.name ∧ ch ';' ∉ c.name ∧ c.value ≠ [] ∧ ch ';' ∉ c.value

/-- The Set-Cookie values the text form can carry: no semicolon anywhere, a proper name. -/
structure SetCookie.Plain (sc : SetCookie) : Prop where
  name : sc.name ≠ [] ∧ ch '=' ∉ sc.name
  value : ch ';' ∉ sc.value
  path : ch ';' ∉ sc.path
  domain : ch ';' ∉ sc.domain
  expires : ch ';' ∉ sc.expires
  maxAge : ch ';' ∉ sc.maxAge
  sameSite : ch ';' ∉ sc.sameSite

/-- What is assumed of `strings.ToLower`: on ASCII text it lower-cases byte by byte. -/
def LowersAscii (toLower : Bytes → Bytes) : Prop :=
  ∀ s : Bytes, (∀ b ∈ s, b.toNat < 128) → toLower s = s.map lowerByte

end Memar.Http.Spec
