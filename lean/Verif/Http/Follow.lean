import Verif.Http.HostRead

/-!
# Following the redirects of the host check: C315

The Location line that the host check writes (`hostSupported`, C15), read again as the target of a request (`targetRun`, C313).
-/

/-! ## Specification -/

namespace Memar.Http.Spec
open Memar

/-- The text stays on one line: it has no carriage return and no line feed. -/
def OneLine (v : Bytes) : Prop := ∀ b ∈ v, b ≠ 13 ∧ b ≠ 10

end Memar.Http.Spec

namespace Memar.Http
open Memar Memar.Http.Spec

/-! ## Proofs -/

/-- The path and the query of a request as the end of a URI without fragment. -/
private def tailOf (req : Request) : Uri.Tail := ⟨req.path, match req.query with | [] => none | q => some q, none⟩

private theorem url_absolute (d : Bytes) (req : Request) : httpsURL d req.path req.query = Uri.absoluteForm (bs "https") d (tailOf req) := by
  unfold httpsURL Uri.absoluteForm tailOf Uri.Tail.text
  cases req.query with
  | nil => simp [Uri.withSign, bs]
  | cons b t => simp [Uri.withSign, bs]; rfl

private theorem tail_well (req : Request) (h1 : req.path.head? = some (ch '/')) (h2 : Uri.Avoids req.path "?# ") (h3 : Uri.Avoids req.query "# ") : (tailOf req).WellFormed := by
  refine ⟨h1, h2, ?_, by intro f h; cases h⟩
  intro q hq
  unfold tailOf at hq
  cases hc : req.query with
  | nil => simp [hc] at hq
  | cons b t => simp only [hc, Option.some.injEq] at hq; rw [← hq, ← hc]; exact h3

/-- **C315**, the part that holds: a request that is redirected because of its host, with a path that starts with a slash, is redirected to a target which, read as the target of
a new request, is for the configured domain over https and has the same path and the same query. With its authority split, that request passes the host check: following the
redirect ends after one step. And the Location line is one line if the domain, path and query are. Missing: requests with line breaks in the path (refuted:
`C315_line_breaks_violated`). -/
theorem C315_followed_partial (d : Bytes) (req : Request) (res : Response) (rest method : Bytes) (h1 : Lacks res (bs "Location")) (h2 : Lacks res (bs "Cache-Control"))
    (h : NumericHost req.host ∨ (d ≠ [] ∧ req.host = wwwOf d)) (hne : d ≠ []) (hd : Uri.Avoids d ":@/?# ") (hnum : ¬ NumericHost d) (hw : ¬ ∃ e, e ≠ [] ∧ d = wwwOf e)
    (hslash : req.path.head? = some (ch '/')) (hpath : Uri.Avoids req.path "?# ") (hquery : Uri.Avoids req.query "# ") (hr : Uri.Ends rest) :
    ∃ r u, hostSupported d req res = some (false, r) ∧ r.statusCode = bs "301" ∧
      targetRun {} [.read (r.header.get (bs "Location") ++ rest)] = some u ∧
      u.scheme = bs "https" ∧ u.au.authority = d ∧ u.path = req.path ∧ u.query = req.query ∧
      (∀ res', hostSupported d (requestOf method { u with au := u.au.init u.au.authority }) res' = some (true, res')) ∧
      (OneLine d → OneLine req.path → OneLine req.query → OneLine (r.header.get (bs "Location"))) := by
  obtain ⟨r, hr1, hr2⟩ := C15_redirects d req res h1 h2 h
  have hda : Uri.Avoids d "/?# " := by
    exact fun c hc hm => hd c hc (show c ∈ bs ":@" ++ bs "/?# " from List.mem_append_right _ hm)
  have hdh : Uri.Avoids d ":@" := by
    exact fun c hc hm => hd c hc (show c ∈ bs ":@" ++ bs "/?# " from List.mem_append_left _ hm)
  have hx := Uri.C96_absolute_form_partial {} (bs "https") d (tailOf req) rest (by decide) (by decide) (by decide) hda (tail_well req hslash hpath hquery)
    (by intro _ f hf; cases hf) hr
  have hrun : targetRun {} [.read (r.header.get (bs "Location") ++ rest)] =
      some (Uri.URI.holding {} (Uri.absoluteForm (bs "https") d (tailOf req)) (bs "https") d (tailOf req)) := by
    rw [hr2.location, url_absolute]
    simp only [targetRun, targetStep, Uri.URI.unmarshalFrom, hx, sliceFrom]
    rw [if_pos (by simp)]
    rfl
  refine ⟨r, _, hr1, hr2.status.1, hrun, rfl, rfl, rfl, ?_, ?_, ?_⟩
  · show (tailOf req).query.getD [] = req.query
    unfold tailOf
    cases req.query <;> rfl
  · intro res'
    refine C15_own_domain_passes d _ res' hnum hw (.inr ?_)
    show (Uri.Authority.init _ d).host = d
    have := Uri.C100_host_port_partial (Uri.URI.holding {} (Uri.absoluteForm (bs "https") d (tailOf req)) (bs "https") d (tailOf req)).au d none hne hdh
      (by intro p hp; cases hp)
    rw [show Uri.hostPort d none = d from rfl] at this
    rw [this]
  · intro k1 k2 k3
    rw [hr2.location]
    have hp : OneLine (bs "https://") := by unfold OneLine; decide
    have hq : OneLine (bs "?") := by unfold OneLine; decide
    intro b hb
    unfold httpsURL at hb
    rw [List.mem_append, List.mem_append, List.mem_append] at hb
    rcases hb with ((hb | hb) | hb) | hb
    · exact hp b hb
    · exact k1 b hb
    · exact k2 b hb
    · cases hc : req.query with
      | nil => rw [hc] at hb; cases hb
      | cons x t =>
        rw [hc] at hb
        rcases List.mem_append.mp hb with hb | hb
        · exact hq b hb
        · exact k3 b (by rw [hc]; exact hb)

/-- C315 violated: the Location line of a redirect is one line. Every path with a line break in it, and with no space and none of the signs that end a path, is read from the
bytes of a target as it is; and for every request with such a path that is redirected the line break is in the Location line. -/
theorem C315_line_breaks_violated (d : Bytes) (req : Request) (res : Response) (rest : Bytes) (h1 : Lacks res (bs "Location")) (h2 : Lacks res (bs "Cache-Control"))
    (h : NumericHost req.host ∨ (d ≠ [] ∧ req.host = wwwOf d)) (hslash : req.path.head? = some (ch '/')) (hpath : Uri.Avoids req.path "?# ")
    (host : Bytes) (hhost : Uri.Avoids host "/?# ") (hr : Uri.Ends rest) (hbreak : ¬ OneLine req.path) :
    (∃ u, targetRun {} [.read (bs "http://" ++ host ++ req.path ++ rest)] = some u ∧ u.path = req.path) ∧
      ∃ r, hostSupported d req res = some (false, r) ∧ ¬ OneLine (r.header.get (bs "Location")) := by
  obtain ⟨r, hr1, hr2⟩ := C15_redirects d req res h1 h2 h
  constructor
  · have hx := Uri.C96_absolute_form_partial {} (bs "http") host ⟨req.path, none, none⟩ rest (by decide) (by decide) (by decide) hhost
      ⟨hslash, hpath, (by intro q h; cases h), (by intro q h; cases h)⟩ (by intro _ f hf; cases hf) hr
    refine ⟨Uri.URI.holding {} (Uri.absoluteForm (bs "http") host ⟨req.path, none, none⟩) (bs "http") host ⟨req.path, none, none⟩, ?_, rfl⟩
    have ht : bs "http://" ++ host ++ req.path ++ rest = Uri.absoluteForm (bs "http") host ⟨req.path, none, none⟩ ++ rest := by
      simp [Uri.absoluteForm, Uri.Tail.text, Uri.withSign, bs]
    rw [ht]
    simp only [targetRun, targetStep, Uri.URI.unmarshalFrom, hx, sliceFrom]
    rw [if_pos (by simp)]
    rfl
  · refine ⟨r, hr1, fun ho => hbreak fun b hb => ?_⟩
    rw [hr2.location] at ho
    exact ho b (by unfold httpsURL; simp [hb])

/-! ## Non-vacuity -/

private theorem exLacks (k : Bytes) (h : k ≠ []) : Lacks Response.init k := by
  intro p hp
  simp only [Response.init, Header.init] at hp
  have := List.eq_of_mem_replicate hp
  rw [this]; exact fun e => h e.symm

example := C315_followed_partial (bs "sabz.city") ⟨bs "GET", bs "10.0.0.1", bs "/a/b", bs "q=1?2"⟩ Response.init (bs " HTTP/1.1") (bs "GET") (exLacks _ (by decide))
  (exLacks _ (by decide)) (.inl (by decide)) (by decide) (by decide) (by decide) (by rintro ⟨e, _, h⟩; have := congrArg List.head? h; revert this; simp [Spec.wwwOf, bs])
  rfl (by decide) (by decide) (.inr rfl)
example := C315_line_breaks_violated (bs "sabz.city") ⟨bs "GET", bs "10.0.0.1", bs "/a" ++ [13, 10] ++ bs "Set-Cookie:x", []⟩ Response.init (bs " HTTP/1.1")
  (exLacks _ (by decide)) (exLacks _ (by decide)) (.inl (by decide)) rfl (by decide) (bs "10.0.0.1") (by decide) (.inr rfl)
  (fun h => absurd rfl (h 13 (by decide)).1)

end Memar.Http
