import Verif.Strings
import Verif.Http.HeaderProps
import Verif.Strconv

/-!
# Package `net/http`: Content-Type (header-content-type.go) and Content-Length (header-content-length.go)

`strconv.FormatUint`/`ParseUint` are modelled by `Verif/Decimal.lean` and `Verif/Strconv.lean`.
-/

namespace Memar.Http
open Memar Spec Decimal

/-- net/http/header-content-type.go:67-83 -/
inductive MimeType where
  | unset | text | application
  deriving DecidableEq, Repr
inductive MimeSubType where
  | unset | html | json
  deriving DecidableEq, Repr

/-- net/http/header-content-type.go:21-26 -/
structure ContentType where
  type : MimeType := .unset
  subType : MimeSubType := .unset
  charset : Bytes := []
  boundary : Bytes := []
  deriving DecidableEq, Repr

/-- net/http/header-content-type.go:32-41 the loop: state (contentType, mediaTypeFirst,
mediaTypeSecond, index); the string is cut while `i` goes on. -/
def ctLoop (ct : Bytes) (i index : Nat) (first second : Bytes) : Option (Bytes × Bytes × Bytes) :=
  if h : i < ct.length then
    if ct[i] = ch '/' then ctLoop ct (i + 1) (i + 1) (ct.take i) second
    else if ct[i] = ch ';' then
      match slice ct index i with
      | none => none
      | some sec =>
        if i + 2 ≤ ct.length then ctLoop (ct.drop (i + 2)) (i + 1) index first sec else none
    else ctLoop ct (i + 1) index first second
  else some (ct, first, second)
  termination_by ct.length - i
  decreasing_by all_goals (first | omega | (simp only [List.length_drop]; omega))

/-- net/http/header-content-type.go:43-48 the parameter: (charset, boundary) -/
def ctParam (ct : Bytes) : Option (Bytes × Bytes) :=
  match ct with
  | [] => none
  | b :: _ =>
    if b = ch 'c' then (sliceFrom ct 8).map fun x => (x, [])
    else if b = ch 'b' then (sliceFrom ct 9).map fun x => ([], x)
    else some ([], [])

/-- net/http/header-content-type.go:50-55 -/
def ctType (first : Bytes) : MimeType :=
  if first = bs "text" then .text else if first = bs "application" then .application else .unset

/-- net/http/header-content-type.go:57-62 -/
def ctSubType (second : Bytes) : MimeSubType :=
  if second = bs "html" then .html else if second = bs "json" then .json else .unset

/-- net/http/header-content-type.go:29-65 `FromString` -/
def contentTypeFromString (s : Bytes) : Option ContentType :=
  match ctLoop s 0 0 [] [] with
  | none => none
  | some (ct, first, second) =>
    (ctParam ct).map fun p => ⟨ctType first, ctSubType second, p.1, p.2⟩

/-- net/http/header-content-type.go:10-14 `ContentType` -/
def Header.contentType (h : Header) : Option ContentType :=
  contentTypeFromString (h.get (bs "Content-Type"))

/-- net/http/header-content-length.go:17-19 `AddContentLength` -/
def Header.addContentLength (h : Header) (n : U64) : Header := h.add (bs "Content-Length") (decDigits n.toNat)

/-- net/http/header-content-length.go:10-14 `ContentLength` -/
def Header.contentLength (h : Header) : U64 := parseUint64 (h.get (bs "Content-Length"))

/-! ## C58 -/

/-- C58: a content length written to a header is read back, for every length. -/
theorem C58_content_length_round_trip (h : Header) (habs : ∀ p ∈ h.lines, p.1 ≠ bs "Content-Length") (n : U64) :
    (h.addContentLength n).contentLength = n := by
  have hv : valuesOf h.lines (bs "Content-Length") = [] := by
    simp only [valuesOf, List.filterMap_eq_nil_iff]
    intro p hp; rw [if_neg (habs p hp)]
  have hg : (h.addContentLength n).get (bs "Content-Length") = decDigits n.toNat := by
    rw [get_eq, firstValue, Header.addContentLength, Header.add, valuesOf_append, hv]; simp [valuesOf]
  unfold Header.contentLength
  rw [hg, parseUint64_decDigits]

example := C58_content_length_round_trip ⟨[(bs "Host", bs "a.b"), (bs "Date", bs "x")]⟩ (by decide +kernel) 70000#64

/-- C58: without a Content-Length line the length reads as zero. -/
theorem C58_absent_length_is_zero (h : Header) (habs : ∀ p ∈ h.lines, p.1 ≠ bs "Content-Length") :
    h.contentLength = 0 := by
  have hv : valuesOf h.lines (bs "Content-Length") = [] := by
    simp only [valuesOf, List.filterMap_eq_nil_iff]
    intro p hp; rw [if_neg (habs p hp)]
  unfold Header.contentLength parseUint64
  rw [get_eq, firstValue, hv]; simp

example := C58_absent_length_is_zero ⟨[(bs "Host", bs "a.b")]⟩ (by decide +kernel)

/-- C279 violated: asking a header without Content-Type for its content type panics. -/
theorem C279_absent_content_type_panics_violated (h : Header) (habs : ∀ p ∈ h.lines, p.1 ≠ bs "Content-Type") :
    h.contentType = none := by
  have hv : valuesOf h.lines (bs "Content-Type") = [] := by
    simp only [valuesOf, List.filterMap_eq_nil_iff]
    intro p hp; rw [if_neg (habs p hp)]
  unfold Header.contentType
  rw [get_eq, firstValue, hv]
  decide +kernel

example := C279_absent_content_type_panics_violated ⟨[(bs "Host", bs "a.b")]⟩ (by decide +kernel)

theorem ctLoop_no_semi (ct : Bytes) (i index : Nat) (first second : Bytes) (h : ch ';' ∉ ct) :
    ∃ f, ctLoop ct i index first second = some (ct, f, second) := by
  fun_induction ctLoop ct i index first second with
  | case1 ct i index first second hi hs ih => exact ih h
  | case2 ct i index first second hi hs hsemi he => exact absurd (hsemi ▸ List.getElem_mem hi) h
  | case3 ct i index first second hi hs hsemi sec he hle ih => exact absurd (hsemi ▸ List.getElem_mem hi) h
  | case4 ct i index first second hi hs hsemi sec he hle => exact absurd (hsemi ▸ List.getElem_mem hi) h
  | case5 ct i index first second hi hs hsemi ih => exact ih h
  | case6 ct i index first second hi => exact ⟨first, rfl⟩

/-- C279 violated: without parameters (no semicolon) the sub type is never recognised. -/
theorem C279_subtype_needs_semicolon_violated (s : Bytes) (h : ch ';' ∉ s) (c : ContentType)
    (hc : contentTypeFromString s = some c) : c.subType = .unset := by
  obtain ⟨f, e⟩ := ctLoop_no_semi s 0 0 [] [] h
  unfold contentTypeFromString at hc
  rw [e] at hc
  obtain ⟨p, _, hp⟩ := Option.map_eq_some_iff.mp hc
  rw [← hp]
  show ctSubType [] = .unset
  decide

example := C279_subtype_needs_semicolon_violated (bs "text/html") (by decide +kernel) _
  (Option.some_get (show (contentTypeFromString (bs "text/html")).isSome by decide +kernel)).symm

/-- C279 violated: a text whose cut-off rest starts like a parameter but is too short panics. -/
theorem C279_short_parameter_panics_violated :
    contentTypeFromString (bs "text/html; c=1") = none ∧ contentTypeFromString (bs "c/x") = none := by
  decide +kernel

theorem ctLoop_skip (ct : Bytes) (i j index : Nat) (first second : Bytes) (hij : i ≤ j) (hj : j ≤ ct.length)
    (h : ∀ k, i ≤ k → k < j → ct[k]? ≠ some (ch '/') ∧ ct[k]? ≠ some (ch ';')) :
    ctLoop ct i index first second = ctLoop ct j index first second := by
  induction hd : j - i generalizing i with
  | zero => rw [show i = j by omega]
  | succ d ih =>
    have hi : i < ct.length := by omega
    obtain ⟨h1, h2⟩ := h i (Nat.le_refl _) (by omega)
    rw [List.getElem?_eq_getElem hi] at h1 h2
    rw [ctLoop, dif_pos hi, if_neg (fun e => h1 (by rw [e])), if_neg (fun e => h2 (by rw [e]))]
    exact ih (i + 1) (by omega) (fun k hk hk2 => h k (by omega) hk2) (by omega)

theorem getElem?_not_mem {s : Bytes} {c : Byte} (h : c ∉ s) (k : Nat) : s[k]? ≠ some c := by
  intro e
  exact h (List.mem_of_getElem? e)

/-- C199: a content type `type/subtype; parameter` is taken apart correctly, whatever the three parts
are (as long as they contain no further separators). -/
theorem C199_content_type_parts (t s p : Bytes) (ht : ch '/' ∉ t ∧ ch ';' ∉ t) (hs : ch '/' ∉ s ∧ ch ';' ∉ s)
    (hp : ch '/' ∉ p ∧ ch ';' ∉ p) :
    contentTypeFromString (t ++ ch '/' :: (s ++ ch ';' :: ch ' ' :: p)) =
      (ctParam p).map fun q => ⟨ctType t, ctSubType s, q.1, q.2⟩ := by
  have e : ctLoop (t ++ ch '/' :: (s ++ ch ';' :: ch ' ' :: p)) 0 0 [] [] = some (p, t, s) := by
    have len : (t ++ ch '/' :: (s ++ ch ';' :: ch ' ' :: p)).length = t.length + 1 + s.length + 2 + p.length := by
      simp; omega
    rw [ctLoop_skip _ 0 t.length 0 [] [] (by omega) (by omega) (by
      intro k _ hk
      rw [List.getElem?_append_left hk]
      exact ⟨getElem?_not_mem ht.1 k, getElem?_not_mem ht.2 k⟩)]
    rw [ctLoop, dif_pos (by omega), if_pos (by simp), take_append_len]
    have assoc : t ++ ch '/' :: (s ++ ch ';' :: ch ' ' :: p) = (t ++ ch '/' :: s) ++ ch ';' :: (ch ' ' :: p) := by simp
    rw [ctLoop_skip _ (t.length + 1) (t.length + 1 + s.length) _ _ _ (by omega) (by omega) (by
      intro k hk1 hk2
      rw [List.getElem?_append_right (by omega)]
      obtain ⟨m, rfl⟩ : ∃ m, k = t.length + 1 + m := ⟨k - (t.length + 1), by omega⟩
      rw [show t.length + 1 + m - t.length = m + 1 by omega, List.getElem?_cons_succ,
        List.getElem?_append_left (by omega)]
      exact ⟨getElem?_not_mem hs.1 m, getElem?_not_mem hs.2 m⟩)]
    have l2 : (t ++ ch '/' :: s).length = t.length + 1 + s.length := by simp; omega
    have hget : ∀ h, (t ++ ch '/' :: (s ++ ch ';' :: ch ' ' :: p))[t.length + 1 + s.length]'h = ch ';' := by
      intro h
      apply Option.some.inj
      rw [← List.getElem?_eq_getElem, assoc, ← l2, List.getElem?_append_right (Nat.le_refl _)]
      simp
    have hsl : slice (t ++ ch '/' :: (s ++ ch ';' :: ch ' ' :: p)) (t.length + 1) (t.length + 1 + s.length) = some s := by
      unfold slice
      rw [if_pos (by omega), assoc, ← l2, take_append_len, drop_append_len]
    rw [ctLoop, dif_pos (by omega), if_neg (by rw [hget]; decide), if_pos (hget _), hsl]
    simp only
    rw [if_pos (by omega)]
    have hdr : (t ++ ch '/' :: (s ++ ch ';' :: ch ' ' :: p)).drop (t.length + 1 + s.length + 2) = p := by
      rw [assoc, ← l2, show (t ++ ch '/' :: s).length + 2 = (t ++ ch '/' :: s).length + 1 + 1 from rfl,
        ← List.drop_drop, drop_append_len]
      rfl
    rw [hdr]
    have fin : ∀ i index f, ctLoop p i index f s = some (p, f, s) := by
      intro i index f
      by_cases hi : i ≤ p.length
      · rw [ctLoop_skip p i p.length index f s hi (Nat.le_refl _) (by
          intro k _ _; exact ⟨getElem?_not_mem hp.1 k, getElem?_not_mem hp.2 k⟩)]
        rw [ctLoop, dif_neg (by omega)]
      · rw [ctLoop, dif_neg (by omega)]
    exact fin _ _ _
  unfold contentTypeFromString
  rw [e]

example := C199_content_type_parts (bs "text") (bs "html") (bs "charset=utf-8") (by decide +kernel) (by decide +kernel) (by decide +kernel)

/-- The names of the media types the package knows. -/
def typeNames : List (Bytes × MimeType) := [(bs "text", .text), (bs "application", .application)]
/-- The names of the sub types the package knows. -/
def subTypeNames : List (Bytes × MimeSubType) := [(bs "html", .html), (bs "json", .json)]

/-- C199: the known types and sub types are recognised by their names, all others read as unset, and
the value of a charset or boundary parameter is returned whole. -/
theorem C199_content_type_values (t s v : Bytes) (ht : ch '/' ∉ t ∧ ch ';' ∉ t)
    (hs : ch '/' ∉ s ∧ ch ';' ∉ s) (hv : ch '/' ∉ v ∧ ch ';' ∉ v) :
    ∃ mt st,
      contentTypeFromString (t ++ bs "/" ++ s ++ bs "; charset=" ++ v) = some ⟨mt, st, v, []⟩ ∧
      contentTypeFromString (t ++ bs "/" ++ s ++ bs "; boundary=" ++ v) = some ⟨mt, st, [], v⟩ ∧
      (∀ x ∈ typeNames, x.1 = t → mt = x.2) ∧ ((∀ x ∈ typeNames, x.1 ≠ t) → mt = .unset) ∧
      (∀ x ∈ subTypeNames, x.1 = s → st = x.2) ∧ ((∀ x ∈ subTypeNames, x.1 ≠ s) → st = .unset) := by
  have h1 := C199_content_type_parts t s (bs "charset=" ++ v) ht hs
    ⟨by simpa using ⟨by decide, hv.1⟩, by simpa using ⟨by decide, hv.2⟩⟩
  have h2 := C199_content_type_parts t s (bs "boundary=" ++ v) ht hs
    ⟨by simpa using ⟨by decide, hv.1⟩, by simpa using ⟨by decide, hv.2⟩⟩
  have e1 : ctParam (bs "charset=" ++ v) = some (v, []) := by
    simp [ctParam, bs, ch, sliceFrom]
  have e2 : ctParam (bs "boundary=" ++ v) = some ([], v) := by
    simp [ctParam, bs, ch, sliceFrom]
  rw [e1] at h1
  rw [e2] at h2
  refine ⟨ctType t, ctSubType s, ?_, ?_, ?_, ?_, ?_, ?_⟩
  · rw [show t ++ bs "/" ++ s ++ bs "; charset=" ++ v =
      t ++ ch '/' :: (s ++ ch ';' :: ch ' ' :: (bs "charset=" ++ v)) by simp [bs, ch], h1]; rfl
  · rw [show t ++ bs "/" ++ s ++ bs "; boundary=" ++ v =
      t ++ ch '/' :: (s ++ ch ';' :: ch ' ' :: (bs "boundary=" ++ v)) by simp [bs, ch], h2]; rfl
  · intro x hx hxt; subst hxt; exact (by decide : ∀ x ∈ typeNames, ctType x.1 = x.2) x hx
  · intro h
    have a := h (bs "text", .text) (by simp [typeNames])
    have b := h (bs "application", .application) (by simp [typeNames])
    simp only [ctType]; rw [if_neg (fun e => a e.symm), if_neg (fun e => b e.symm)]
  · intro x hx hxt; subst hxt; exact (by decide : ∀ x ∈ subTypeNames, ctSubType x.1 = x.2) x hx
  · intro h
    have a := h (bs "html", .html) (by simp [subTypeNames])
    have b := h (bs "json", .json) (by simp [subTypeNames])
    simp only [ctSubType]; rw [if_neg (fun e => a e.symm), if_neg (fun e => b e.symm)]

/-- C58, the intended case. -/
example : contentTypeFromString (bs "text/html; charset=utf-8") =
    some ⟨.text, .html, bs "utf-8", []⟩ := by decide +kernel

example : ∀ p ∈ Header.init.lines, p.1 ≠ bs "Content-Length" ∧ p.1 ≠ bs "Content-Type" := by decide +kernel

end Memar.Http
