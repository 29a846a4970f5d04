import Verif.Uri.MarshalProps
import Verif.Uri.QueryProps

/-!
# What is put into a URI arrives at the other side: C317

Path segments are escaped and query values written as text (C10, C101), put into a URI, which is written and read by the other side (C98), which unescapes the segments and
reads the query.
-/

namespace Memar.Uri
open Memar

/-- Specification: the path made of these texts, each with a slash before it. -/
def slashed (texts : List Bytes) : Bytes := texts.flatMap fun t => ch '/' :: t

private theorem escape_all (m : Mode) (segs : List Bytes) : segs.mapM (fun s => escape s m) = some (segs.map fun s => s.flatMap (escByte m)) := by
  induction segs with
  | nil => rfl
  | cons s t ih => rw [List.mapM_cons, ih, escape_eq]; rfl

private theorem unescape_all (m : Mode) (hm : m ≠ .host ∧ m ≠ .zone) (segs : List Bytes) :
    (segs.map fun s => s.flatMap (escByte m)).mapM (fun t => unescape t m) = some (segs.map Except.ok) := by
  induction segs with
  | nil => rfl
  | cons s t ih =>
    obtain ⟨x, h1, h2⟩ := C10_roundtrip s m hm
    rw [escape_eq, Option.some.injEq] at h1
    rw [List.map_cons, List.mapM_cons, ih, h1, h2]; rfl

private theorem segment_avoids (s : Bytes) : ∀ c ∈ s.flatMap (escByte .pathSegment), c ∉ bs "/?#; \"<>" :=
  (C11_no_delimiters s _).2.1 (escape_eq s .pathSegment)

private theorem slashed_head {texts : List Bytes} (h : texts ≠ []) : (slashed texts).head? = some (ch '/') := by
  cases texts with
  | nil => exact absurd rfl h
  | cons t r => rfl

private theorem mem_slashed {texts : List Bytes} {c : Byte} (h : c ∈ slashed texts) : c = ch '/' ∨ ∃ t ∈ texts, c ∈ t := by
  obtain ⟨t, ht, hc⟩ := List.mem_flatMap.mp h
  rcases List.mem_cons.mp hc with hc | hc
  · exact .inl hc
  · exact .inr ⟨t, ht, hc⟩

private theorem path_avoids (segs : List Bytes) : Avoids (slashed (segs.map fun s => s.flatMap (escByte .pathSegment))) "?# " := by
  intro c hc hb
  rcases mem_slashed hc with rfl | ⟨t, ht, hc⟩
  · exact absurd hb (by decide)
  · obtain ⟨s, _, rfl⟩ := List.mem_map.mp ht
    exact segment_avoids s c hc ((by decide : ∀ c ∈ bs "?# ", c ∈ bs "/?#; \"<>") c hb)

private theorem no_slash (segs : List Bytes) : ∀ t ∈ segs.map (fun s => s.flatMap (escByte .pathSegment)), ch '/' ∉ t := by
  intro t ht h
  obtain ⟨s, _, rfl⟩ := List.mem_map.mp ht
  exact segment_avoids s _ h (by decide)

private theorem mem_joinAnd {c : Byte} : ∀ {xs : List Bytes}, c ∈ joinAnd xs → c = ch '&' ∨ ∃ x ∈ xs, c ∈ x
  | [], h => by cases h
  | [x], h => .inr ⟨x, by simp, h⟩
  | x :: y :: r, h => by
    rcases List.mem_append.mp (show c ∈ x ++ ch '&' :: joinAnd (y :: r) from h) with h | h
    · exact .inr ⟨x, by simp, h⟩
    · rcases List.mem_cons.mp h with h | h
      · exact .inl h
      · rcases mem_joinAnd h with h | ⟨z, hz, h⟩
        · exact .inl h
        · exact .inr ⟨z, List.mem_cons_of_mem _ hz, h⟩

private theorem query_avoids {m : Values} {order : List Bytes} {q : Bytes} (h : toString m order = some q) : Avoids q ":# " := by
  rw [toString_eq, Option.some.injEq] at h
  subst h
  intro c hc hb
  have no : ∀ s : Bytes, c ∈ s.flatMap (escByte .queryComponent) → False := fun s hm =>
    (C11_no_delimiters s _).1 (escape_eq s .queryComponent) c hm ((by decide : ∀ c ∈ bs ":# ", c ∈ bs "&=#;?/: @\"<>[]'") c hb)
  rcases mem_joinAnd hc with rfl | ⟨x, hx, hc⟩
  · exact absurd hb (by decide)
  · obtain ⟨p, _, rfl⟩ := List.mem_map.mp hx
    unfold pairText at hc
    rcases List.mem_append.mp hc with hc | hc
    · exact no _ hc
    · rcases List.mem_cons.mp hc with rfl | hc
      · exact absurd hb (by decide)
      · exact no _ hc

private theorem path_no_colon (segs : List Bytes) (hcolon : ∀ s ∈ segs, ch ':' ∉ s) :
    Avoids (slashed (segs.map fun s => s.flatMap (escByte .pathSegment))) ":?# " := by
  have hbyte : ∀ b : Byte, ch ':' ∈ escByte .pathSegment b → b = ch ':' := by decide +kernel
  intro c hc hb
  rcases List.mem_cons.mp (show c ∈ ch ':' :: bs "?# " from hb) with rfl | hb
  · rcases mem_slashed hc with h | ⟨t, ht, hc⟩
    · exact absurd h (by decide)
    · obtain ⟨s, hs, rfl⟩ := List.mem_map.mp ht
      obtain ⟨b, hb1, hb2⟩ := List.mem_flatMap.mp hc
      rw [hbyte b hb2] at hb1
      exact hcolon s hs hb1
  · exact path_avoids segs c hc hb

/-- **C317**: whatever bytes the segments of the path and the names and values of the query have, a complete URI made of them, written and read by the other side, has exactly
these segments and, for every name, exactly these values in their order. -/
theorem C317_absolute_arrives (scheme authority : Bytes) (segs : List Bytes) (m : Values) (order : List Bytes) (hne : scheme ≠ []) (hs : Avoids scheme ":/?# ")
    (hstar : scheme.head? ≠ some (ch '*')) (ha : Avoids authority "/?# ") (hsegs : segs ≠ []) (hn : order.Nodup) (hall : ∀ k, k ∈ order ↔ (m k).isSome) :
    ∃ texts q u m', segs.mapM (fun s => escape s .pathSegment) = some texts ∧ toString m order = some q ∧
      fresh.unmarshal (made scheme authority (slashed texts) q []).marshal.1 = some u ∧ u.scheme = scheme ∧ u.au.authority = authority ∧
      u.path = slashed texts ∧ (∀ t ∈ texts, ch '/' ∉ t) ∧ texts.mapM (fun t => unescape t .pathSegment) = some (segs.map Except.ok) ∧
      fromString (fun _ => none) u.query = some (m', none) ∧ ∀ k, (m' k).getD [] = (m k).getD [] := by
  obtain ⟨q, m', h1, h2, h3⟩ := C101_round_trip m order hn hall
  have hhead := slashed_head (texts := segs.map fun s => s.flatMap (escByte .pathSegment)) (by simpa using hsegs)
  obtain ⟨u, k1, k2, k3, k4, k5, _⟩ := C98_written_is_read_back scheme authority _ q [] hne hs hstar ha (.inr hhead) (path_avoids segs)
    (fun c hc hb => query_avoids h1 c hc ((by decide : ∀ c ∈ bs "# ", c ∈ bs ":# ") c hb))
  rw [if_neg (by intro e; rw [e] at hhead; cases hhead)] at k4
  exact ⟨_, q, u, m', escape_all _ segs, h1, k1, k2, k3, k4, no_slash segs, unescape_all _ (by decide) segs, by rw [k5]; exact h2, h3⟩

/-- **C317**, the part that holds of targets without scheme and host, as in the first line of a request: the same, for segments without a colon. Missing: segments with a colon,
which escaping leaves as it is (refuted: `C317_colon_violated`). -/
theorem C317_origin_arrives_partial (segs : List Bytes) (m : Values) (order : List Bytes) (hsegs : segs ≠ []) (hcolon : ∀ s ∈ segs, ch ':' ∉ s) (hn : order.Nodup)
    (hall : ∀ k, k ∈ order ↔ (m k).isSome) :
    ∃ texts q u m', segs.mapM (fun s => escape s .pathSegment) = some texts ∧ toString m order = some q ∧
      fresh.unmarshal (made [] [] (slashed texts) q []).marshal.1 = some u ∧ u.scheme = [] ∧ u.au.authority = [] ∧
      u.path = slashed texts ∧ (∀ t ∈ texts, ch '/' ∉ t) ∧ texts.mapM (fun t => unescape t .pathSegment) = some (segs.map Except.ok) ∧
      fromString (fun _ => none) u.query = some (m', none) ∧ ∀ k, (m' k).getD [] = (m k).getD [] := by
  obtain ⟨q, m', h1, h2, h3⟩ := C101_round_trip m order hn hall
  have hhead := slashed_head (texts := segs.map fun s => s.flatMap (escByte .pathSegment)) (by simpa using hsegs)
  have hp := path_no_colon segs hcolon
  obtain ⟨u, k1, k2, k3, k4, k5, _⟩ := C98_origin_is_read_back _ q [] hhead hp (query_avoids h1)
  exact ⟨_, q, u, m', escape_all _ segs, h1, k1, k2, k3, k4, no_slash segs, unescape_all _ (by decide) segs, by rw [k5]; exact h2, h3⟩

private theorem read_in_line (u : URI) (path q rest : Bytes) (hp : path.head? = some (ch '/')) (hp' : Avoids path ":?# ") (hq : Avoids q ":# ") (hr : Ends rest) :
    u.unmarshalFrom ((made [] [] path q []).marshal.1 ++ rest) =
      some (u.holding (Tail.text ⟨path, if q = [] then none else some q, none⟩) u.scheme u.au.authority ⟨path, if q = [] then none else some q, none⟩, rest) := by
  have hne : path ≠ [] := by intro h; rw [h] at hp; simp at hp
  have htext : (made [] [] path q []).marshal.1 = Tail.text ⟨path, if q = [] then none else some q, none⟩ := by
    show URI.text (made [] [] path q []) = _
    unfold URI.text Tail.text made URI.set
    by_cases h : q = [] <;> simp [h, hne, withSign]
  have h := C96_origin_form_partial u ⟨path, if q = [] then none else some q, none⟩ rest
    ⟨hp, fun c hc hb => hp' c hc ((by decide : ∀ c ∈ bs "?# ", c ∈ bs ":?# ") c hb), ?_, by intro f h; cases h⟩ (by intro _ f h; cases h) ?_ hr
  · rw [htext]
    unfold URI.unmarshalFrom
    rw [h]
    simp [sliceFrom]
  · intro q' h c hc hb
    by_cases hn : q = []
    · simp [hn] at h
    · simp [hn] at h
      subst h
      exact hq c hc ((by decide : ∀ c ∈ bs "# ", c ∈ bs ":# ") c hb)
  · intro c hc hb
    unfold Tail.text at hc
    by_cases hn : q = []
    · simp [hn, withSign] at hc
      exact hp' c hc ((by decide : ∀ c ∈ bs ":", c ∈ bs ":?# ") c hb)
    · simp [hn, withSign] at hc
      rcases hc with hc | hc | hc
      · exact hp' c hc ((by decide : ∀ c ∈ bs ":", c ∈ bs ":?# ") c hb)
      · rw [hc] at hb; exact absurd hb (by decide)
      · exact hq c hc ((by decide : ∀ c ∈ bs ":", c ∈ bs ":# ") c hb)

/-- **C317**, the part that holds of the target in the first line of a request: the target that is written for such segments and values is read out of the line by a URI that may
have been used before, what follows it in the line is left for the next reader, and the segments and values are the ones that were put in. Missing: segments with a colon (refuted:
`C317_colon_violated`), and a request without a query read by a URI that still has one (refuted: `C317_query_stays_violated`). -/
theorem C317_request_line_partial (u : URI) (segs : List Bytes) (m : Values) (order : List Bytes) (rest : Bytes) (hsegs : segs ≠ []) (hcolon : ∀ s ∈ segs, ch ':' ∉ s)
    (hn : order.Nodup) (hall : ∀ k, k ∈ order ↔ (m k).isSome) (hr : Ends rest) (hu : u.query = [] ∨ toString m order ≠ some []) :
    ∃ texts q u' m', segs.mapM (fun s => escape s .pathSegment) = some texts ∧ toString m order = some q ∧
      u.unmarshalFrom ((made [] [] (slashed texts) q []).marshal.1 ++ rest) = some (u', rest) ∧
      u'.path = slashed texts ∧ (∀ t ∈ texts, ch '/' ∉ t) ∧ texts.mapM (fun t => unescape t .pathSegment) = some (segs.map Except.ok) ∧
      fromString (fun _ => none) u'.query = some (m', none) ∧ ∀ k, (m' k).getD [] = (m k).getD [] := by
  obtain ⟨q, m', h1, h2, h3⟩ := C101_round_trip m order hn hall
  have hx := read_in_line u _ q rest (slashed_head (texts := segs.map fun s => s.flatMap (escByte .pathSegment)) (by simpa using hsegs)) (path_no_colon segs hcolon)
    (query_avoids h1) hr
  refine ⟨_, q, _, m', escape_all _ segs, h1, hx, rfl, no_slash segs, unescape_all _ (by decide) segs, ?_, h3⟩
  have : (if q = [] then none else some q).getD u.query = q := by
    by_cases h : q = []
    · rcases hu with hu | hu
      · simp [h, hu]
      · exact absurd (h ▸ h1) hu
    · simp [h]
  show fromString _ ((if q = [] then none else some q).getD u.query) = _
  rw [this]; exact h2

/-- C317 violated: a request without query values arrives without them. Read by a URI that was used before and not set back, it has the query of the request before it. -/
theorem C317_query_stays_violated (u : URI) (segs : List Bytes) (rest : Bytes) (hsegs : segs ≠ []) (hcolon : ∀ s ∈ segs, ch ':' ∉ s) (hr : Ends rest) (hold : u.query ≠ []) :
    ∃ texts u', segs.mapM (fun s => escape s .pathSegment) = some texts ∧ toString (fun _ => none) [] = some [] ∧
      u.unmarshalFrom ((made [] [] (slashed texts) [] []).marshal.1 ++ rest) = some (u', rest) ∧ u'.path = slashed texts ∧ u'.query = u.query ∧ u'.query ≠ [] := by
  have hx := read_in_line u _ [] rest (slashed_head (texts := segs.map fun s => s.flatMap (escByte .pathSegment)) (by simpa using hsegs)) (path_no_colon segs hcolon)
    (fun c hc => by cases hc) hr
  exact ⟨_, _, escape_all _ segs, toString_eq _ [], hx, rfl, rfl, hold⟩

/-- C317 violated: the target of a request arrives whatever bytes its segments have. With a colon in any segment, whatever the query, reading panics or finds a scheme that was not
written. -/
theorem C317_colon_violated (segs : List Bytes) (m : Values) (order : List Bytes) (s : Bytes) (hs : s ∈ segs) (hcolon : ch ':' ∈ s) :
    ∃ texts q, segs.mapM (fun s => escape s .pathSegment) = some texts ∧ toString m order = some q ∧
      (fresh.unmarshal (made [] [] (slashed texts) q []).marshal.1 = none ∨
        ∃ u, fresh.unmarshal (made [] [] (slashed texts) q []).marshal.1 = some u ∧ u.scheme ≠ []) := by
  refine ⟨_, _, escape_all _ segs, toString_eq m order, ?_⟩
  have hq := query_avoids (toString_eq m order)
  generalize joinAnd ((pairsIn m order).map pairText) = q at hq ⊢
  have hp := path_avoids segs
  have hsegs : segs ≠ [] := by intro e; rw [e] at hs; cases hs
  have hhead := slashed_head (texts := segs.map fun s => s.flatMap (escByte .pathSegment)) (by simpa using hsegs)
  have hmem : ch ':' ∈ slashed (segs.map fun s => s.flatMap (escByte .pathSegment)) := by
    refine List.mem_flatMap.mpr ⟨_, List.mem_map.mpr ⟨s, hs, rfl⟩, List.mem_cons_of_mem _ (List.mem_flatMap.mpr ⟨ch ':', hcolon, by decide⟩)⟩
  generalize slashed (segs.map fun s => s.flatMap (escByte .pathSegment)) = path at hp hhead hmem ⊢
  have hne : path ≠ [] := by intro e; rw [e] at hmem; cases hmem
  obtain ⟨pre, post, rfl, hpre⟩ := List.eq_append_cons_of_mem hmem
  have htext : (made [] [] (pre ++ ch ':' :: post) q []).marshal.1 = pre ++ ch ':' :: (post ++ (if q = [] then [] else ch '?' :: q)) := by
    show URI.text (made [] [] (pre ++ ch ':' :: post) q []) = _
    unfold URI.text made URI.set
    by_cases h : q = []
    · simp [h]
    · simp [h]
  have hav : Avoids pre ": " := by
    intro c hc hb
    rcases List.mem_cons.mp (show c ∈ ch ':' :: bs " " from hb) with rfl | hb
    · exact hpre hc
    · exact hp c (List.mem_append_left _ hc) ((by decide : ∀ c ∈ bs " ", c ∈ bs "?# ") c hb)
  have hhead' : pre.head? = some (ch '/') := by
    cases pre with
    | nil => simp at hhead; exact absurd hhead (by decide)
    | cons a r => simpa using hhead
  rw [htext]
  generalize post ++ (if q = [] then [] else ch '?' :: q) = post'
  unfold URI.unmarshal
  by_cases hl : 2 ≤ post'.length
  · obtain ⟨u, e, h1, h2, _⟩ := C96_colon_in_path_violated
      { fresh with uri := pre ++ ch ':' :: post', raw := some (pre ++ ch ':' :: post') } pre post' hhead' hav hl
    refine .inr ⟨u, by rw [h1]; rfl, ?_⟩
    rw [h2]; intro e; rw [e] at hhead'; cases hhead'
  · left
    rw [(C212_panics_iff_partial _ _).mpr (.inr ⟨?_, pre, post', rfl, hav, by omega⟩)]
    · rfl
    · cases pre with
      | nil => cases hhead'
      | cons a r =>
        simp only [List.head?_cons, Option.some.injEq] at hhead'
        rw [hhead', List.cons_append, List.head?_cons]
        intro e
        exact absurd (Option.some.inj e) (by decide)

/-! ## Non-vacuity -/

private def exValues : Values := fun k => if k = bs "a&b" then some [bs "1 2", bs "x=%#"] else none

private theorem exAll (k : Bytes) : k ∈ [bs "a&b"] ↔ (exValues k).isSome := by
  unfold exValues
  by_cases h : k = bs "a&b" <;> simp [h]

example := C317_absolute_arrives (bs "https") (bs "sabz.city:80") [bs "a/b", bs "c:d?", []] exValues [bs "a&b"] (by decide) (by decide) (by decide) (by decide) (by decide)
  (by decide) exAll
example := C317_origin_arrives_partial [bs "a/b", bs "c #?"] exValues [bs "a&b"] (by decide) (by decide) (by decide) exAll
example := C317_request_line_partial { fresh with query := bs "old" } [bs "a/b", bs "c #?"] exValues [bs "a&b"] (bs " HTTP/1.1") (by decide) (by decide) (by decide) exAll
  (.inr rfl) (.inr (by decide +kernel))
example := C317_query_stays_violated { fresh with query := bs "old" } [bs "a/b", bs "c #?"] (bs " HTTP/1.1") (by decide) (by decide) (.inr rfl) (by decide)
example := C317_colon_violated [bs "time", bs "12:30"] exValues [bs "a&b"] (bs "12:30") (by decide) (by decide)

end Memar.Uri
