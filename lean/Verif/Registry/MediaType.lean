import Verif.Registry.Props
import Verif.Identifier.Props

/-!
# Media types made from texts: mediatype/media-type.go (C176)

SHA3-256 and base64 are parameters, as for the identifiers.
-/

namespace Memar.Registry.Types
open Memar Memar.Identifier Memar.Binary.Spec

/-- mediatype/media-type.go:19-28; `tree`, `suffix` and `parameters` are never set. -/
structure MediaType where
  generated : U32B.Generated
  text : Bytes
  main : Bytes
  sub : Bytes
deriving DecidableEq, Repr

/-- mediatype/media-type.go:30-36 `Init`, and 49 `FromString`: the media type afterwards, and whether the call panicked. A panic of the hash is one too;
it cannot happen with 32 bytes (C30_generated). -/
def MediaType.init (sum enc : Bytes → Bytes) (mt : MediaType) (t : Bytes) : MediaType × Bool :=
  match parse t with
  | none => ({ mt with text := t }, true)
  | some (m, s) =>
    match U32B.Generated.newHashString sum enc t with
    | none => ({ mt with text := t, main := m, sub := s }, true)
    | some g => (⟨g, t, m, s⟩, false)

/-- mediatype/media-type.go:48 `ToString` and 39 `MediaType` -/
def MediaType.toString (mt : MediaType) : Bytes := mt.text

/-- C176: a media type made from a text with a slash reads back as the text, its main type and sub type are the parts around the first slash, and its
identifier is that of the text, whatever it was before.
Missing: texts without a slash, and parameters (refuted: `C176_bad_text_violated`,
`C176_parameters_violated`). -/
theorem C176_from_text_partial (sum enc : Bytes → Bytes) (hsum : ∀ d, (sum d).length = 32) (mt : MediaType) (m s : Bytes) (hm : ch '/' ∉ m) :
    ∃ r, mt.init sum enc (m ++ ch '/' :: s) = (r, false) ∧ r.toString = m ++ ch '/' :: s ∧ r.main = m ∧ r.sub = s ∧
      r.generated.uid = sum (m ++ ch '/' :: s) ∧ r.generated.id = BitVec.ofNat 64 (leVal ((sum (m ++ ch '/' :: s)).take 8)) := by
  have hp := ((C78_parse (m ++ ch '/' :: s)).2 m s).2 ⟨rfl, hm⟩
  obtain ⟨g, hg, h1, h2, _⟩ := C30_generated sum enc hsum (m ++ ch '/' :: s)
  exact ⟨⟨g, _, m, s⟩, by rw [MediaType.init, hp]; dsimp only; rw [hg], rfl, rfl, rfl, h1, h2⟩

/-- C176: reading the text of a media type into another one gives an equal one.
Missing: texts without a slash, and parameters (refuted: `C176_bad_text_violated`,
`C176_parameters_violated`). -/
theorem C176_round_trip_partial (sum enc : Bytes → Bytes) (a b r : MediaType) (t : Bytes) (h : a.init sum enc t = (r, false)) :
    b.init sum enc r.toString = (r, false) := by
  unfold MediaType.init at h ⊢
  cases hp : parse t with
  | none => rw [hp] at h; simp at h
  | some x =>
    obtain ⟨m, s⟩ := x
    rw [hp] at h
    dsimp only at h
    cases hg : U32B.Generated.newHashString sum enc t with
    | none => rw [hg] at h; simp at h
    | some g =>
      rw [hg] at h
      simp only [Prod.mk.injEq, and_true] at h
      subst h
      simp only [MediaType.toString, hp, hg]

/-- C176 violated: a text without a slash is not reported: reading it panics, and leaves a media type with the new text, the old parts and the old
identifier. -/
theorem C176_bad_text_violated (sum enc : Bytes → Bytes) (mt : MediaType) (t : Bytes) (h : ch '/' ∉ t) :
    mt.init sum enc t = ({ mt with text := t }, true) := by
  rw [MediaType.init, (C78_parse t).1.2 h]

/-- C176 violated: whatever follows the slash is the sub type: suffix and parameters are part of it, so that the
sub type of a text with parameters is never the sub type of the text without. -/
theorem C176_parameters_violated (sum enc : Bytes → Bytes) (hsum : ∀ d, (sum d).length = 32) (mt : MediaType) (m s p : Bytes) (hm : ch '/' ∉ m) :
    ∃ r, mt.init sum enc (m ++ ch '/' :: (s ++ bs ";" ++ p)) = (r, false) ∧ r.sub = s ++ bs ";" ++ p ∧ r.sub ≠ s := by
  obtain ⟨r, h1, _, _, h2, _⟩ := C176_from_text_partial sum enc hsum mt m (s ++ bs ";" ++ p) hm
  refine ⟨r, h1, h2, ?_⟩
  rw [h2]
  intro e
  have e := congrArg List.length e
  simp [bs] at e

example : ch '/' ∉ bs "text" ∧ (bs "text" ++ ch '/' :: bs "html") = bs "text/html" := by decide
example : ((⟨⟨[], 0#64, []⟩, [], [], []⟩ : MediaType).init (fun _ => List.replicate 32 1#8) id (bs "text/html")).1.sub = bs "html" := by decide

example := C176_from_text_partial (fun _ => List.replicate 32 1#8) id (fun _ => by decide) ⟨⟨[], 0#64, []⟩, [], [], []⟩ (bs "text")
  (bs "html") (by decide)
example := C176_round_trip_partial (fun _ => List.replicate 32 1#8) id ⟨⟨[], 0#64, []⟩, [], [], []⟩ ⟨⟨[], 0#64, []⟩, bs "x", [], []⟩ _
  (bs "text/html") (show _ = (((⟨⟨[], 0#64, []⟩, [], [], []⟩ : MediaType).init (fun _ => List.replicate 32 1#8) id (bs "text/html")).1, false)
    by decide +kernel)
example := C176_bad_text_violated (fun _ => List.replicate 32 1#8) id ⟨⟨[], 0#64, []⟩, [], [], []⟩ (bs "html") (by decide)

end Memar.Registry.Types
