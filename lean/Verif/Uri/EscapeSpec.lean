import Verif.Uri.Escape

/-!
# Specification of percent-encoding

Independent of `shouldEscape`: the bytes that may stand for themselves in a component are written
down per mode, and decoding is a relation between encoded and decoded strings.
-/

namespace Memar.Uri.Spec
open Memar Memar.Uri

/-- Besides ASCII letters and digits, the bytes that may stand for themselves. -/
def literalMarks : Mode → String
  | .path => "-_.~$&+,/:;=@"
  | .pathSegment => "-_.~$&+:=@"
  | .host => "-_.~!$&'()*+,;=:[]<>\""
  | .zone => "-_.~!$&'()*+,;=:[]<>\""
  | .userPassword => "-_.~$&+,;="
  | .queryComponent => "-_.~"
  | .fragment => "-_.~$&+,/:;=?@!()*"
  | .other => "-_.~"

/-- ASCII letter or digit. -/
def Alnum (c : Byte) : Prop :=
  (65 ≤ c.toNat ∧ c.toNat ≤ 90) ∨ (97 ≤ c.toNat ∧ c.toNat ≤ 122) ∨ (48 ≤ c.toNat ∧ c.toNat ≤ 57)

instance (c : Byte) : Decidable (Alnum c) := inferInstanceAs (Decidable (_ ∨ _))

/-- `c` may stand for itself in a component of kind `m`. -/
def Literal (m : Mode) (c : Byte) : Prop := Alnum c ∨ c ∈ bs (literalMarks m)

instance (m : Mode) (c : Byte) : Decidable (Literal m c) := inferInstanceAs (Decidable (_ ∨ _))

/-- Value of a hexadecimal digit of either case. -/
def hexVal (c : Byte) : Option Nat :=
  match (bs "0123456789abcdef").idxOf? c with
  | some i => some i
  | none => (bs "0123456789ABCDEF").idxOf? c

/-- Which percent-escapes a component of kind `m` admits: host names only for non-ASCII bytes and the
literal `%25`, zone identifiers only for `%25`, space and bytes that could be written literally in a host. -/
def EscapeAllowed (m : Mode) (a b : Byte) (v : Nat) : Prop :=
  (m = .host → 128 ≤ v ∨ (a = ch '2' ∧ b = ch '5')) ∧
  (m = .zone → (a = ch '2' ∧ b = ch '5') ∨ v = 32 ∨ Literal .host (BitVec.ofNat 8 v))

instance (m : Mode) (a b : Byte) (v : Nat) : Decidable (EscapeAllowed m a b v) :=
  inferInstanceAs (Decidable (_ ∧ _))

/-- Which bytes a component of kind `m` admits unescaped on input: hosts and zones admit non-ASCII and
literal bytes (and '+'), the others everything. -/
def RawAllowed (m : Mode) (c : Byte) : Prop :=
  (m = .host ∨ m = .zone) → 128 ≤ c.toNat ∨ Literal m c

instance (m : Mode) (c : Byte) : Decidable (RawAllowed m c) := inferInstanceAs (Decidable (_ → _))

/-- `Decodes m s t`: `s` is well-formed in mode `m` and stands for `t`. -/
inductive Decodes (m : Mode) : Bytes → Bytes → Prop where
  | nil : Decodes m [] []
  | esc (a b : Byte) (x y : Nat) (s t : Bytes) : hexVal a = some x → hexVal b = some y →
      EscapeAllowed m a b (16 * x + y) → Decodes m s t →
      Decodes m (ch '%' :: a :: b :: s) (BitVec.ofNat 8 (16 * x + y) :: t)
  | plus (s t : Bytes) : m = .queryComponent → Decodes m s t →
      Decodes m (ch '+' :: s) (ch ' ' :: t)
  | raw (c : Byte) (s t : Bytes) : c ≠ ch '%' → ¬ (c = ch '+' ∧ m = .queryComponent) →
      RawAllowed m c → Decodes m s t → Decodes m (c :: s) (c :: t)

/-- An encoded string: literal bytes, `%XY` triples with upper-case hex digits, and '+' in queries. -/
inductive Encoded (m : Mode) : Bytes → Prop where
  | nil : Encoded m []
  | lit (c : Byte) (s : Bytes) : Literal m c → Encoded m s → Encoded m (c :: s)
  | esc (a b : Byte) (s : Bytes) : a ∈ bs "0123456789ABCDEF" → b ∈ bs "0123456789ABCDEF" →
      Encoded m s → Encoded m (ch '%' :: a :: b :: s)
  | plus (s : Bytes) : m = .queryComponent → Encoded m s → Encoded m (ch '+' :: s)

end Memar.Uri.Spec
