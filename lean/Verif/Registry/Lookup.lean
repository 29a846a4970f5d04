import Verif.Registry.Props

/-!
# C160: the answers of the registries of media types and compress types
(mediatypes/media-types.go, compress-types/compress-types.go)
-/

namespace Memar.Registry.Types
open Memar

/-- compress-types/errors: the error of a lookup. -/
inductive LookupErr | notFound
deriving DecidableEq, Repr

/-- compress-types/compress-types.go:58-64 `GetByID` -/
def CState.getByID {α} (s : CState α) (id : BitVec 64) : Option α × Option LookupErr :=
  match s.byID id with
  | none => (none, some .notFound)
  | some ct => (some ct, none)
/-- compress-types/compress-types.go:65-71 `GetByMediaType` -/
def CState.getByMediaType {α} (s : CState α) (mt : Bytes) : Option α × Option LookupErr :=
  match s.byMediaType mt with
  | none => (none, some .notFound)
  | some ct => (some ct, none)
/-- compress-types/compress-types.go:72-78 `GetByFileExtension` -/
def CState.getByFileExtension {α} (s : CState α) (ex : Bytes) : Option α × Option LookupErr :=
  match s.byFileExtension ex with
  | none => (none, some .notFound)
  | some ct => (some ct, none)
/-- compress-types/compress-types.go:79-85 `GetByContentEncoding` -/
def CState.getByContentEncoding {α} (s : CState α) (ce : Bytes) : Option α × Option LookupErr :=
  match s.byContentEncoding ce with
  | none => (none, some .notFound)
  | some ct => (some ct, none)

/-- mediatypes/media-types.go:49-55 `GetByMediaType`; the error is never set -/
def MState.getByMediaType {α} (s : MState α) (t : Bytes) : Option α × Option LookupErr := (s.byMediaType t, none)
/-- mediatypes/media-types.go:57-63 `GetByID` -/
def MState.getByID {α} (s : MState α) (id : BitVec 64) : Option α × Option LookupErr := (s.byID id, none)
/-- mediatypes/media-types.go:64-70 `GetByFileExtension` -/
def MState.getByFileExtension {α} (s : MState α) (ex : Bytes) : Option α × Option LookupErr :=
  (s.byFileExtension ex, none)

/-- Specification: `x` is the last of `h` with `key x = k`. -/
def IsLast {α κ} (key : α → κ) (k : κ) (h : List α) (x : α) : Prop :=
  ∃ h1 h2, h = h1 ++ x :: h2 ∧ key x = k ∧ ∀ y ∈ h2, key y ≠ k

theorem isLast_exists {α κ} [DecidableEq κ] (key : α → κ) (k : κ) (h : List α) :
    (∃ x, IsLast key k h x) ↔ ∃ x ∈ h, key x = k := by
  constructor
  · rintro ⟨x, h1, h2, rfl, hk, -⟩; exact ⟨x, by simp, hk⟩
  · induction h using history_induction with
    | nil => rintro ⟨x, hx, -⟩; cases hx
    | concat h y ih =>
      rintro ⟨x, hx, hk⟩
      by_cases hy : key y = k
      · exact ⟨y, h, [], rfl, hy, by simp⟩
      · have hx' : x ∈ h := by
          rcases List.mem_append.mp hx with hx | hx
          · exact hx
          · rw [List.mem_singleton.mp hx] at hk; exact absurd hk hy
        obtain ⟨z, h1, h2, e, hz, ha⟩ := ih ⟨x, hx', hk⟩
        refine ⟨z, h1, h2 ++ [y], by rw [e]; simp, hz, ?_⟩
        intro w hw
        rcases List.mem_append.mp hw with hw | hw
        · exact ha w hw
        · rw [List.mem_singleton.mp hw]; exact hy

theorem answer {α κ} [DecidableEq κ] (key : α → κ) (k : κ) (h : List α) (m : Option α)
    (hm : ∀ x, m = some x ↔ IsLast key k h x) (r : Option α × Option LookupErr)
    (hr : r = (m, if m.isSome then none else some .notFound)) :
    (∀ x, r = (some x, none) ↔ IsLast key k h x) ∧
    (r = (none, some .notFound) ↔ ∀ x ∈ h, key x ≠ k) := by
  subst hr
  have he := isLast_exists key k h
  cases m with
  | none =>
    simp only [Option.isSome_none, Bool.false_eq_true, if_false, reduceCtorEq, Prod.mk.injEq, false_and, false_iff, true_iff, and_self]
    refine ⟨fun x hx => ?_, fun x hx hk => ?_⟩
    · have := (hm x).2 hx; cases this
    · obtain ⟨z, hz⟩ := he.2 ⟨x, hx, hk⟩
      have := (hm z).2 hz; cases this
  | some a =>
    have ha := (hm a).1 rfl
    simp only [Option.isSome_some, if_true, Prod.mk.injEq, reduceCtorEq, false_and, and_true, false_iff, Option.some.injEq]
    refine ⟨fun x => ?_, fun hn => ?_⟩
    · rw [← hm x, Option.some.injEq]
    · obtain ⟨x, hx, hk⟩ := he.1 ⟨a, ha⟩
      exact hn x hx hk

/-- **C160**: after any history of registrations of compress types, each of the four lookups answers the type registered last
under that key, without an error, and the not-found error exactly when no registered type has that key. -/
theorem C160_compress_lookups {α} (K : TypeKeys α) (h : List α) (s : CState α) (hs : crun K h = some s) :
    (∀ k, (∀ x, s.getByID k = (some x, none) ↔ IsLast K.id k h x) ∧
      (s.getByID k = (none, some .notFound) ↔ ∀ x ∈ h, K.id x ≠ k)) ∧
    (∀ k, (∀ x, s.getByMediaType k = (some x, none) ↔ IsLast K.text k h x) ∧
      (s.getByMediaType k = (none, some .notFound) ↔ ∀ x ∈ h, K.text x ≠ k)) ∧
    (∀ k, (∀ x, s.getByFileExtension k = (some x, none) ↔ IsLast K.fileExtension k h x) ∧
      (s.getByFileExtension k = (none, some .notFound) ↔ ∀ x ∈ h, K.fileExtension x ≠ k)) ∧
    (∀ k, (∀ x, s.getByContentEncoding k = (some x, none) ↔ IsLast K.contentEncoding k h x) ∧
      (s.getByContentEncoding k = (none, some .notFound) ↔ ∀ x ∈ h, K.contentEncoding x ≠ k)) := by
  have e := fun x => ((C78_compress_types K h).2 s hs).2 x
  refine ⟨fun k => answer K.id k h (s.byID k) (fun x => (e x).2.1 k) _ ?_,
    fun k => answer K.text k h (s.byMediaType k) (fun x => (e x).1 k) _ ?_,
    fun k => answer K.fileExtension k h (s.byFileExtension k) (fun x => (e x).2.2.1 k) _ ?_,
    fun k => answer K.contentEncoding k h (s.byContentEncoding k) (fun x => (e x).2.2.2 k) _ ?_⟩
  · unfold CState.getByID; cases s.byID k <;> rfl
  · unfold CState.getByMediaType; cases s.byMediaType k <;> rfl
  · unfold CState.getByFileExtension; cases s.byFileExtension k <;> rfl
  · unfold CState.getByContentEncoding; cases s.byContentEncoding k <;> rfl

/-- **C242**, media types: a lookup by text, identifier or extension answers the type registered last under that key (types
without an extension are not found by it).
Missing: that a missing media type is an error, and that the list names each encoding once
(refuted: `C242_media_not_found_violated`, `C242_listed_twice_violated`). -/
theorem C242_media_lookups_partial {α} (K : TypeKeys α) (h : List α) (s : MState α) (hs : mrun K h = some s) (x : α) :
    (∀ k, (s.getByMediaType k).1 = some x ↔ IsLast K.text k h x) ∧
    (∀ k, (s.getByID k).1 = some x ↔ IsLast K.id k h x) ∧
    (∀ k, (s.getByFileExtension k).1 = some x ↔ k ≠ [] ∧ IsLast K.fileExtension k h x) :=
  (C78_media_types K h).2 s hs x

/-- **C242** violated for media types: a text, an identifier or an extension that nothing was registered under is answered by nil
and no error, for every history. -/
theorem C242_media_not_found_violated {α} (K : TypeKeys α) (h : List α) (s : MState α) (hs : mrun K h = some s) :
    (∀ k, (∀ x ∈ h, K.text x ≠ k) → s.getByMediaType k = (none, none)) ∧
    (∀ k, (∀ x ∈ h, K.id x ≠ k) → s.getByID k = (none, none)) ∧
    (∀ k, (∀ x ∈ h, K.fileExtension x ≠ k) → s.getByFileExtension k = (none, none)) := by
  have e := C242_media_lookups_partial K h s hs
  refine ⟨fun k hk => ?_, fun k hk => ?_, fun k hk => ?_⟩
  · refine Prod.ext (Option.eq_none_iff_forall_ne_some.mpr fun x hx => ?_) rfl
    obtain ⟨y, hy, hky⟩ := (isLast_exists _ _ _).1 ⟨x, ((e x).1 k).1 hx⟩
    exact hk y hy hky
  · refine Prod.ext (Option.eq_none_iff_forall_ne_some.mpr fun x hx => ?_) rfl
    obtain ⟨y, hy, hky⟩ := (isLast_exists _ _ _).1 ⟨x, ((e x).2.1 k).1 hx⟩
    exact hk y hy hky
  · refine Prod.ext (Option.eq_none_iff_forall_ne_some.mpr fun x hx => ?_) rfl
    obtain ⟨y, hy, hky⟩ := (isLast_exists _ _ _).1 ⟨x, (((e x).2.2 k).1 hx).2⟩
    exact hk y hy hky

/-- **C242** violated for the list of content encodings: a content encoding registered twice is listed twice, although one type only
can be found under it. -/
theorem C242_listed_twice_violated {α} (K : TypeKeys α) (h : List α) (s : CState α) (hs : crun K h = some s) (ce : Bytes) :
    s.contentEncodings.count ce = (h.filter fun x => K.contentEncoding x = ce).length := by
  rw [((C78_compress_types K h).2 s hs).1]
  induction h using history_induction generalizing s with
  | nil => rfl
  | concat h y ih =>
    have hc : crun K (h ++ [y]) = (crun K h).bind fun s => cregister K s y := by simp [crun, List.foldl_append]
    rw [hc] at hs
    obtain ⟨s', hs', -⟩ := Option.bind_eq_some_iff.mp hs
    rw [List.map_append, List.count_append, ih s' hs', List.filter_append, List.length_append]
    by_cases hy : K.contentEncoding y = ce
    · simp [hy]
    · simp [hy]

/-! ## the two compress types of the repository -/

/-- What the registry asks of a compress type, as the texts it answers. -/
structure CT where
  mediaType : Bytes
  fileExtension : Bytes
  contentEncoding : Bytes
deriving DecidableEq, Repr

/-- compress/gzip/gzip.go:11-14, compress/gzip/gzip.go:24-27 -/
def gzipCT : CT := ⟨bs "application/gzip", bs "gzip", bs "gzip"⟩
/-- compress/flate/deflate.go:11-14, compress/flate/deflate.go:24-27 -/
def deflateCT : CT := ⟨bs "application/deflate", bs "zz", bs "deflate"⟩

/-- The keys of such a type; the identifier is a hash of the media type, a parameter. -/
def ctKeys (hash : Bytes → BitVec 64) : TypeKeys CT :=
  { id := fun c => hash c.mediaType, text := fun c => c.mediaType, fileExtension := fun c => c.fileExtension,
    mainType := fun _ => [], subType := fun _ => [], mediaType := fun c => c.mediaType,
    contentEncoding := fun c => c.contentEncoding }

/-- **C160**: with the packages gzip and flate linked in, in whichever order Go initialises them (compress/gzip/init.go:9-12,
compress/flate/init.go:9-12), both are found by content encoding, by extension and by media type, and both encodings are
listed, each once. -/
theorem C160_builtin (hash : Bytes → BitVec 64) (h : List CT) (hp : h = [gzipCT, deflateCT] ∨ h = [deflateCT, gzipCT]) :
    ∃ s, crun (ctKeys hash) h = some s ∧
      (∀ c ∈ [gzipCT, deflateCT], s.getByContentEncoding c.contentEncoding = (some c, none) ∧
        s.getByFileExtension c.fileExtension = (some c, none) ∧ s.getByMediaType c.mediaType = (some c, none)) ∧
      s.contentEncodings.count (bs "gzip") = 1 ∧ s.contentEncodings.count (bs "deflate") = 1 ∧
      s.contentEncodings.length = 2 := by
  cases hs : crun (ctKeys hash) h with
  | none =>
    exfalso
    obtain ⟨x, hx, hn⟩ := (C78_compress_types (ctKeys hash) h).1.1 hs
    rcases hp with rfl | rfl <;> simp only [List.mem_cons, List.not_mem_nil, or_false] at hx <;>
      rcases hx with rfl | rfl <;>
      first
        | exact absurd hn (show ¬ (gzipCT.mediaType = [] ∨ gzipCT.contentEncoding = []) by decide +kernel)
        | exact absurd hn (show ¬ (deflateCT.mediaType = [] ∨ deflateCT.contentEncoding = []) by decide +kernel)
  | some s =>
    have l := C160_compress_lookups (ctKeys hash) h s hs
    have lc := ((C78_compress_types (ctKeys hash) h).2 s hs).1
    refine ⟨s, rfl, ?_, ?_⟩
    · have key : ∀ {κ : Type} (key : CT → κ), key gzipCT ≠ key deflateCT → ∀ c ∈ [gzipCT, deflateCT], IsLast key (key c) h c := by
        intro κ key hne c hc
        simp only [List.mem_cons, List.not_mem_nil, or_false] at hc
        rcases hp with rfl | rfl <;> rcases hc with rfl | rfl
        · exact ⟨[], [deflateCT], rfl, rfl, by simpa using hne.symm⟩
        · exact ⟨[gzipCT], [], rfl, rfl, by simp⟩
        · exact ⟨[deflateCT], [], rfl, rfl, by simp⟩
        · exact ⟨[], [gzipCT], rfl, rfl, by simpa using hne⟩
      intro c hc
      exact ⟨((l.2.2.2 _).1 c).2 (key _ (by show gzipCT.contentEncoding ≠ deflateCT.contentEncoding; decide +kernel) c hc),
        ((l.2.2.1 _).1 c).2 (key _ (by show gzipCT.fileExtension ≠ deflateCT.fileExtension; decide +kernel) c hc),
        ((l.2.1 _).1 c).2 (key _ (by show gzipCT.mediaType ≠ deflateCT.mediaType; decide +kernel) c hc)⟩
    · rw [lc]
      have : (ctKeys hash).contentEncoding = CT.contentEncoding := rfl
      rw [this]
      rcases hp with rfl | rfl <;> decide +kernel

/-- **C160**: with both packages linked in, in either order, the names by which a client finds them are these: `gzip` is the
content encoding and the file extension of `application/gzip`; `deflate` is the content encoding and `zz` the file extension of
`application/deflate`. -/
theorem C160_builtin_names (hash : Bytes → BitVec 64) (h : List CT) (hp : h = [gzipCT, deflateCT] ∨ h = [deflateCT, gzipCT]) :
    ∃ s g d, crun (ctKeys hash) h = some s ∧
      s.getByContentEncoding (bs "gzip") = (some g, none) ∧ s.getByFileExtension (bs "gzip") = (some g, none) ∧
      s.getByMediaType (bs "application/gzip") = (some g, none) ∧
      s.getByContentEncoding (bs "deflate") = (some d, none) ∧ s.getByFileExtension (bs "zz") = (some d, none) ∧
      s.getByMediaType (bs "application/deflate") = (some d, none) := by
  obtain ⟨s, hs, h1, _⟩ := C160_builtin hash h hp
  obtain ⟨a, b, c⟩ := h1 gzipCT (by simp)
  obtain ⟨d, e, f⟩ := h1 deflateCT (by simp)
  exact ⟨s, gzipCT, deflateCT, hs, a, b, c, d, e, f⟩

example := C160_builtin_names (fun _ => 7#64) [deflateCT, gzipCT] (.inr rfl)

/-- Case: a history with one compress type; a lookup that finds, and one that does not. -/
example : ∃ s, crun (ctKeys fun _ => 7#64) [gzipCT] = some s ∧ s.getByID 7#64 = (some gzipCT, none) ∧
    s.getByContentEncoding (bs "br") = (none, some .notFound) :=
  ⟨_, rfl, by decide +kernel, by decide +kernel⟩

/-- Case: a history with one media type and a lookup that finds nothing. -/
example : ∃ s, mrun { ctKeys (fun _ => 7#64) with mainType := fun _ => bs "application" } [gzipCT] = some s ∧
    (∀ x ∈ [gzipCT], x.mediaType ≠ bs "text/html") ∧ s.getByMediaType (bs "text/html") = (none, none) :=
  ⟨_, rfl, by decide +kernel, by decide +kernel⟩

theorem exHistory : (crun (ctKeys fun _ => 7#64) [gzipCT]).isSome := by decide +kernel

example := C160_compress_lookups _ _ _ (Option.some_get exHistory).symm
example := C242_listed_twice_violated _ _ _ (Option.some_get exHistory).symm (bs "gzip")

/-- The compress type as a media type. -/
def exKeys : TypeKeys CT := { ctKeys (fun _ => 7#64) with mainType := fun _ => bs "application" }
theorem exMedia : (mrun exKeys [gzipCT]).isSome := by decide +kernel

example := C242_media_lookups_partial _ _ _ (Option.some_get exMedia).symm gzipCT
example := C242_media_not_found_violated _ _ _ (Option.some_get exMedia).symm

end Memar.Registry.Types
