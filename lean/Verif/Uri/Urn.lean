import Verif.Base

/-!
# URNs

`uri.URN` keeps a text and offers its namespace and its name inside that namespace.
-/

namespace Memar.Uri.Urn

/-! ## Model -/

/-- net/uri/urn.go:6-10 -/
structure URN where
  uri : String := ""
  nid : String := ""
  nss : String := ""
deriving DecidableEq

/-- net/uri/urn.go:13-16: `Init`; only the whole text is set. -/
def URN.init (u : URN) (urn : String) : URN := { u with uri := urn }

/-- net/uri/urn.go:18 -/
def URN.getURI (u : URN) : String := u.uri

/-- net/uri/urn.go:19 -/
def URN.scheme (_ : URN) : String := "urn"

/-- net/uri/urn.go:20 -/
def URN.getNID (u : URN) : String := u.nid

/-- net/uri/urn.go:21 -/
def URN.getNSS (u : URN) : String := u.nss

/-- A URN a user of the package can hold: its fields are not exported, so it is the zero value
after any calls of `Init`. -/
def held (texts : List String) : URN := texts.foldl URN.init {}

/-! ## Specification -/

/-- RFC 8141: `text` is the URN of the name `nss` in the namespace `nid`. -/
def IsUrn (text nid nss : String) : Prop :=
  text = "urn:" ++ nid ++ ":" ++ nss ∧ nid ≠ "" ∧ ':' ∉ nid.toList ∧ nss ≠ ""

/-! ## C305 -/

theorem held_eq (texts : List String) :
    held texts = { uri := texts.getLast?.getD "", nid := "", nss := "" } := by
  suffices h : ∀ (l : List String) (u : URN), l.foldl URN.init u =
      { u with uri := l.getLast?.getD u.uri } from h texts {}
  intro l
  induction l with
  | nil => intro u; rfl
  | cons t l ih =>
      intro u
      rw [List.foldl_cons, ih, List.getLast?_cons]
      rfl

/-- **C305** is violated for every URN: after any calls of `Init`, the last with a URN, neither the
namespace nor the name reported is that of the URN; both are empty. -/
theorem C305_parts_violated (before : List String) (text nid nss : String)
    (h : IsUrn text nid nss) :
    let u := held (before ++ [text])
    u.getNID = "" ∧ u.getNID ≠ nid ∧ u.getNSS = "" ∧ u.getNSS ≠ nss := by
  intro u
  have e : u = _ := held_eq _
  rw [e]
  exact ⟨rfl, fun x => h.2.1 x.symm, rfl, fun x => h.2.2.2 x.symm⟩

example := C305_parts_violated ["urn:x:y"] "urn:isbn:0451450523" "isbn" "0451450523"
  ⟨by decide +kernel, by decide, by decide +kernel, by decide⟩

/-- **C305**: the whole text is the last one given, and the scheme is that of a URN even before
`Init`. Missing: the parts of the text (refuted: `C305_parts_violated`). -/
theorem C305_text_partial (before : List String) (text : String) :
    (held (before ++ [text])).getURI = text ∧ (held []).getURI = "" ∧
      ∀ u : URN, u.scheme = "urn" := by
  refine ⟨?_, rfl, fun _ => rfl⟩
  rw [held_eq]
  simp [URN.getURI]

example := C305_text_partial ["urn:x:y"] "urn:isbn:0451450523"

end Memar.Uri.Urn
