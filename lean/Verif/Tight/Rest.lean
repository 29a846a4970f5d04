import Verif.Tight.Texts
import Verif.Compress.Types
import Verif.Net.AddrProps

/-!
# C180, C203, C246, C279: what holds of properties that the code violates
-/

namespace Memar.Http
open Memar Spec

/-- **C180**, the part that holds, exactly: walking the values of a name that is not empty reports all of them, in order, after every history in which none of
them is empty, and after no other history. Missing: values that are empty, and the empty name (refuted:
`C180_iteration_stops_at_any_empty_value_violated`, `C180_empty_name_always_empty_violated`). -/
theorem C180_walk_iff_partial (ops : List Op) (key : Bytes) (hk : key ≠ []) :
    (∀ n, (Header.run ops).nthNext key 0 n = (valuesOf (additions ops) key)[n]?) ↔ ∀ v ∈ valuesOf (additions ops) key, v ≠ [] := by
  constructor
  · intro h v hv he
    subst he
    obtain ⟨vs, ws, e, hvs⟩ : ∃ vs ws, valuesOf (additions ops) key = vs ++ [] :: ws ∧ ∀ v ∈ vs, v ≠ [] := by
      generalize valuesOf (additions ops) key = l at hv
      induction l with
      | nil => cases hv
      | cons x l ih =>
        by_cases hx : x = []
        · exact ⟨[], l, by simp [hx], by simp⟩
        · obtain ⟨vs, ws, e, hh⟩ := ih (by
            rcases List.mem_cons.1 hv with h | h
            · exact absurd h.symm hx
            · exact h)
          exact ⟨x :: vs, ws, by simp [e], by
            intro v hv
            rcases List.mem_cons.1 hv with rfl | h
            · exact hx
            · exact hh v h⟩
    have h1 := C180_iteration_stops_at_any_empty_value_violated ops key hk vs ws hvs e vs.length
    rw [h vs.length, e] at h1
    simp at h1
  · intro h n
    exact C13_iteration_lists_all_values ops key hk h n

example := (C180_walk_iff_partial [.add (bs "a") (bs "1"), .add (bs "b") [], .add (bs "a") (bs "3")] (bs "a") (by decide)).2 (by decide +kernel) 1

/-- **C279**, the part that holds: a content type without a parameter whose first letter is neither `c` nor `b` is read without a panic, and its type
is recognised by its name. Missing: its sub type (refuted: `C279_subtype_needs_semicolon_violated`), and the types that begin with these letters (refuted:
`C279_short_text_any_violated`). -/
theorem C279_type_alone_partial (t s : Bytes) (ht : ch '/' ∉ t ∧ ch ';' ∉ t) (hs : ch '/' ∉ s ∧ ch ';' ∉ s)
    (hc : t.head? ≠ some (ch 'c') ∧ t.head? ≠ some (ch 'b')) :
    ∃ mt, contentTypeFromString (t ++ ch '/' :: s) = some ⟨mt, .unset, [], []⟩ ∧
      (∀ x ∈ typeNames, x.1 = t → mt = x.2) ∧ ((∀ x ∈ typeNames, x.1 ≠ t) → mt = .unset) := by
  have len : (t ++ ch '/' :: s).length = t.length + 1 + s.length := by simp; omega
  have e : ctLoop (t ++ ch '/' :: s) 0 0 [] [] = some (t ++ ch '/' :: s, t, []) := by
    rw [ctLoop_skip _ 0 t.length 0 [] [] (by omega) (by omega) (by
      intro k _ hk
      rw [List.getElem?_append_left hk]
      exact ⟨getElem?_not_mem ht.1 k, getElem?_not_mem ht.2 k⟩)]
    rw [ctLoop, dif_pos (by omega), if_pos (by simp), take_append_len]
    rw [ctLoop_skip _ (t.length + 1) (t.length + 1 + s.length) _ _ _ (by omega) (by omega) (by
      intro k hk1 hk2
      rw [List.getElem?_append_right (by omega)]
      obtain ⟨m, rfl⟩ : ∃ m, k = t.length + 1 + m := ⟨k - (t.length + 1), by omega⟩
      rw [show t.length + 1 + m - t.length = m + 1 by omega, List.getElem?_cons_succ]
      exact ⟨getElem?_not_mem hs.1 m, getElem?_not_mem hs.2 m⟩)]
    rw [ctLoop, dif_neg (by omega)]
  have ep : ctParam (t ++ ch '/' :: s) = some ([], []) := by
    cases t with
    | nil => rw [List.nil_append, ctParam, if_neg (by decide), if_neg (by decide)]
    | cons b r =>
      have h1 : b ≠ ch 'c' := fun h => hc.1 (by simp [h])
      have h2 : b ≠ ch 'b' := fun h => hc.2 (by simp [h])
      simp [ctParam, h1, h2]
  refine ⟨ctType t, ?_, ?_, ?_⟩
  · unfold contentTypeFromString
    rw [e]
    simp only [ep, Option.map_some]
    rfl
  · intro x hx hxt; subst hxt; exact (by decide : ∀ x ∈ typeNames, ctType x.1 = x.2) x hx
  · intro h
    have a := h (bs "text", .text) (by simp [typeNames])
    have b := h (bs "application", .application) (by simp [typeNames])
    simp only [ctType]; rw [if_neg (fun e => a e.symm), if_neg (fun e => b e.symm)]

example := C279_type_alone_partial (bs "application") (bs "json") (by decide +kernel) (by decide +kernel) (by decide +kernel)

end Memar.Http

namespace Memar.Net.Ipv6Addr
open Memar

/-- **C203**, the part that holds: the unspecified address is written as `::`, and this text is read as that address by a variable that holds it already, and
by no other. Missing: every other address (refuted: `C203_text_violated`), and reading `::` (refuted: `C203_unspecified_violated`). -/
theorem C203_unspecified_partial (old : Bytes) :
    toString (List.replicate 16 0#8) = some (bs "::") ∧
    (isUnspecified (fromString old (bs "::")) = true ↔ old = List.replicate 16 0#8) := by
  refine ⟨by decide +kernel, ?_⟩
  rw [C203_unspecified_violated]
  simp [isUnspecified]

end Memar.Net.Ipv6Addr

namespace Memar.Compress
open Memar

/-- **C246**, the part that holds, exactly: telling a decompressor other contents is answered with an error by the deflate type always, and by the gzip type
for `Decode`, and for `ReadFrom` when what is read has no header of gzip; in no other case. Missing: the other calls of the gzip type (refuted:
`C246_gzip_accepts_violated`). -/
theorem C246_refused_iff_partial (fl : Flavor) (L : Lib) (d : Dec) (p : Put) :
    ∃ d' n rest err, d.put fl L p = some (d', n, rest, err) ∧
      (err = true ↔ fl = .flate ∨ p = .decode ∨ ∃ b, p = .readFrom b ∧ L.header b = false) := by
  cases fl <;> cases p
  · exact ⟨_, _, _, _, rfl, by simp⟩
  · exact ⟨_, _, _, _, rfl, by simp [Dec.unmarshal]⟩
  · exact ⟨_, _, _, _, (by simp [Dec.put, Dec.unmarshalFrom, Dec.unmarshal, sliceFrom]; exact ⟨rfl, rfl, rfl, rfl⟩), by simp⟩
  · exact ⟨_, _, _, _, rfl, by simp [Dec.readFrom]⟩
  · exact ⟨_, _, _, _, rfl, by simp⟩
  · exact ⟨_, _, _, _, rfl, by simp [Dec.unmarshal]⟩
  · exact ⟨_, _, _, _, rfl, by simp⟩
  · exact ⟨_, _, _, _, rfl, by simp [Dec.readFrom]⟩

example := C246_refused_iff_partial .gzip toyLib {} (.readFrom [1, 2])

/-- **C246**, the part that holds: a decompressor that holds nothing yet, asked while its source fails, reports it exactly when it is of the deflate
type; the next call asks the source again, for both types. Missing: the report of the gzip type (refuted: `C246_chain_gzip_error_violated`). -/
theorem C246_failing_source_partial (fl : Flavor) (L : Lib) (w : World) (d : Dec) (s : Nat) (hs : d.source = some s) (hd : d.data = none)
    (hw : w s = none) : d.marshal fl L w = some (d, [], decide (fl = .flate)) := by
  cases fl <;> simp [Dec.marshal, Dec.ready, hd, Dec.decompressAll, hs, hw]

example := C246_failing_source_partial .flate toyLib (fun _ => none) (({} : Dec).init 0) 0 rfl rfl rfl

end Memar.Compress
