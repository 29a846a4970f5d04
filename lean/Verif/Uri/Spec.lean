import Verif.Uri.Model

/-!
# What a URI text is made of

The parts of a URI and the text they stand for (RFC 3986, section 3; RFC 2616, section 5.1.2).
Nothing here looks at the parser.
-/

namespace Memar.Uri

/-- Everything after the authority: the path, the query after `?` and the fragment after `#`. -/
structure Tail where
  path : Bytes
  query : Option Bytes
  fragment : Option Bytes
deriving DecidableEq, Repr

/-- An optional part with the sign before it. -/
def withSign (c : Byte) : Option Bytes → Bytes
  | none => []
  | some t => c :: t

def Tail.text (t : Tail) : Bytes := t.path ++ withSign (ch '?') t.query ++ withSign (ch '#') t.fragment

/-- `scheme "://" authority` path, query and fragment. -/
def absoluteForm (scheme authority : Bytes) (t : Tail) : Bytes :=
  scheme ++ bs "://" ++ authority ++ t.text

/-- No byte of `t` is one of `cs`. -/
def Avoids (t : Bytes) (cs : String) : Prop := ∀ c ∈ t, c ∉ bs cs

instance (t : Bytes) (cs : String) : Decidable (Avoids t cs) := inferInstanceAs (Decidable (∀ c ∈ t, _))

/-- The path starts with a slash; path, query and fragment do not contain the signs that end them. -/
structure Tail.WellFormed (t : Tail) : Prop where
  slash : t.path.head? = some (ch '/')
  path : Avoids t.path "?# "
  query : ∀ q, t.query = some q → Avoids q "# "
  fragment : ∀ f, t.fragment = some f → Avoids f " "

/-- The one combination that is read wrongly: a `?` in the fragment of a URI without a query. -/
def Tail.PlainFragment (t : Tail) : Prop :=
  t.query = none → ∀ f, t.fragment = some f → Avoids f "?"

/-- No colon in path, query or fragment. -/
def Tail.NoColon (t : Tail) : Prop := Avoids t.text ":"

/-- What may follow a URI in a request line: nothing, or a space and more. -/
def Ends (rest : Bytes) : Prop := rest = [] ∨ rest.head? = some (ch ' ')

/-- A URI object in which nothing has been stored. -/
def fresh : URI := {}

end Memar.Uri
