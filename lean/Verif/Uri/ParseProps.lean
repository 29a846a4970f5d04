import Verif.Uri.Lemmas

/-! # Reading URI text (C96, C97) -/

namespace Memar.Uri

/-! ## C96: text is split into its parts -/

/-- What a URI object holds after a text `t` with these parts was read into `u`. -/
def URI.holding (u : URI) (text scheme authority : Bytes) (t : Tail) : URI :=
  { u with
    uri := text, raw := some text, scheme := scheme, au := { u.au with authority := authority }
    path := t.path, query := t.query.getD u.query, fragment := t.fragment.getD u.fragment }

theorem parse_of {u : URI} {s : Bytes} {c : Byte} {st' : Scan} {e : Nat} {u' : URI}
    (hc : s[0]? = some c) (hstar : c ≠ ch '*')
    (h1 : scan s (decide (c = ch '/')) 0 { u := u } = some (st', e)) (h2 : finish s st' e = some u')
    (he : e ≤ s.length) :
    unmarshalFromString u s = some ({ u' with uri := s.take e, raw := some (s.take e) }, e) := by
  unfold unmarshalFromString
  rw [hc]
  simp only
  rw [if_neg hstar, h1]
  simp only
  rw [h2]
  simp only [sliceTo]
  rw [if_pos he]; rfl

/-- C96, absolute form: a text `scheme://authority/path?query#fragment` is split into exactly these
parts, whatever follows after a space; the authority may contain a port, path and query may contain
colons. Excluded: a `?` in the fragment of a URI without a query, and a URI without a path.
Parts that are missing in the text keep what the object held before.
Missing: the excluded texts (refuted: `C96_question_in_fragment_violated`, `C96_no_path_violated`), and parts of an earlier text (refuted: `C96_old_parts_stay_violated`). -/
theorem C96_absolute_form_partial (u : URI) (scheme authority : Bytes) (t : Tail) (rest : Bytes)
    (hne : scheme ≠ []) (hs : Avoids scheme ":/?# ") (hstar : scheme.head? ≠ some (ch '*'))
    (ha : Avoids authority "/?# ") (ht : t.WellFormed) (hf : t.PlainFragment) (hr : Ends rest) :
    unmarshalFromString u (absoluteForm scheme authority t ++ rest) =
      some (u.holding (absoluteForm scheme authority t) scheme authority t,
        (absoluteForm scheme authority t).length) := by
  obtain ⟨c, scheme', rfl⟩ : ∃ c r, scheme = c :: r := by
    cases scheme with
    | nil => exact absurd rfl hne
    | cons c r => exact ⟨c, r, rfl⟩
  generalize hsc : c :: scheme' = scheme at *
  have hcol : bs "://" = [ch ':', ch '/', ch '/'] := by decide
  generalize hS : absoluteForm scheme authority t ++ rest = s
  have hS1 : s = scheme ++ ch ':' :: ([ch '/', ch '/'] ++ authority ++ t.text ++ rest) := by
    rw [← hS, absoluteForm, hcol]; simp
  have hS2 : s = (scheme ++ bs "://") ++ authority ++ (t.text ++ rest) := by
    rw [← hS, absoluteForm]; simp
  have hpre : (scheme ++ bs "://").length = scheme.length + 3 := by rw [List.length_append, hcol]; rfl
  have hcs : c ∈ scheme := by rw [← hsc]; simp
  have hc0 : s[0]? = some c := by rw [hS1, ← hsc]; rfl
  have hsl : decide (c = ch '/') = false := by
    rw [decide_eq_false_iff_not]; exact not_of_avoids hs hcs (by decide)
  have hstar' : c ≠ ch '*' := by rw [← hsc] at hstar; simpa using hstar
  -- the scheme
  have e1 := scan_inert (s := s) (o := false) (st := { u := u }) [] scheme
    (ch ':' :: ([ch '/', ch '/'] ++ authority ++ t.text ++ rest)) (by rw [hS1]; rfl) (by
      intro d hd
      exact ⟨not_of_avoids hs hd (by decide), fun e => absurd e (not_of_avoids hs hd (by decide)),
        fun e => absurd e (not_of_avoids hs hd (by decide)),
        fun e => absurd e (not_of_avoids hs hd (by decide)),
        fun e => absurd e (not_of_avoids hs hd (by decide))⟩)
  simp only [List.length_nil, Nat.zero_add] at e1
  -- the colon
  have e2 := scan_colon (s := s) (o := false) (st := { u := u }) scheme _ hS1 rfl
  -- the authority
  have e3 := scan_inert (s := s) (o := false)
    (st := { u := { u with scheme := scheme }, aS := scheme.length + 3 })
    (scheme ++ bs "://") authority (t.text ++ rest) hS2 (by
      intro d hd
      exact ⟨not_of_avoids ha hd (by decide), fun _ => by simp,
        fun e => absurd e (not_of_avoids ha hd (by decide)),
        fun e => absurd e (not_of_avoids ha hd (by decide)),
        fun e => absurd e (not_of_avoids ha hd (by decide))⟩)
  rw [hpre] at e3
  -- the slash
  obtain ⟨p', hp⟩ : ∃ p', t.path = ch '/' :: p' := by
    have := ht.slash
    cases h : t.path with
    | nil => rw [h] at this; simp at this
    | cons a p' => rw [h] at this; simp at this; exact ⟨p', by rw [this]⟩
  have hS3 : s = (scheme ++ bs "://" ++ authority) ++
      (ch '/' :: (p' ++ withSign (ch '?') t.query ++ withSign (ch '#') t.fragment ++ rest)) := by
    rw [hS2, Tail.text, hp]; simp
  have hc4 : s[scheme.length + 3 + authority.length]? = some (ch '/') := by
    rw [hS3, ← hpre, ← List.length_append, List.getElem?_append_right (Nat.le_refl _)]; simp
  have hon : onSlash s false (scheme.length + 3 + authority.length)
      { u := { u with scheme := scheme }, aS := scheme.length + 3 } =
      some { u := { u with scheme := scheme, au := { u.au with authority := authority } }
             aS := scheme.length + 3, pS := scheme.length + 3 + authority.length } := by
    rw [onSlash, if_pos ⟨by simp, rfl⟩]
    rw [slice_mid' s (scheme ++ bs "://") authority (t.text ++ rest) _ _ hS2 hpre.symm (by rw [hpre])]
    rfl
  have e4 := scan_slash (o := false) hc4 hon
  -- the rest of the path
  have e5 := scan_inert (s := s) (o := false)
    (st := { u := { u with scheme := scheme, au := { u.au with authority := authority } }
             aS := scheme.length + 3, pS := scheme.length + 3 + authority.length })
    (scheme ++ bs "://" ++ authority ++ [ch '/']) p'
    (withSign (ch '?') t.query ++ withSign (ch '#') t.fragment ++ rest) (by rw [hS3]; simp) (by
      intro d hd
      have hd' : d ∈ t.path := by rw [hp]; simp [hd]
      exact ⟨not_of_avoids ht.path hd' (by decide), fun _ => by simp,
        fun _ => Or.inl (by simp),
        fun e => absurd e (not_of_avoids ht.path hd' (by decide)),
        fun e => absurd e (not_of_avoids ht.path hd' (by decide))⟩)
  -- query and fragment
  obtain ⟨st', e6, e7⟩ := scan_tail (s := s) (o := false)
    (st := { u := { u with scheme := scheme, au := { u.au with authority := authority } }
             aS := scheme.length + 3, pS := scheme.length + 3 + authority.length })
    (scheme ++ bs "://" ++ authority) t rest (by rw [hS2]; simp)
    (by rw [List.length_append, hpre]) rfl rfl (Or.inl (by simp)) (Or.inl (by simp)) ht hf hr
  have hlen : (scheme ++ bs "://" ++ authority).length = scheme.length + 3 + authority.length := by
    rw [List.length_append, hpre]
  rw [hlen, hp, List.length_cons] at e6
  rw [List.length_append, hlen, List.length_singleton] at e5
  have habs : scheme ++ bs "://" ++ authority ++ t.text = absoluteForm scheme authority t := rfl
  rw [habs] at e6 e7
  have hscan : scan s (decide (c = ch '/')) 0 { u := u } =
      some (st', (absoluteForm scheme authority t).length) := by
    rw [hsl, e1, e2, e3, e4, e5, ← e6]
    congr 1; omega
  rw [parse_of hc0 hstar' hscan e7 (by rw [← hS]; simp)]
  have htake : s.take (absoluteForm scheme authority t).length = absoluteForm scheme authority t := by
    rw [← hS]; simp
  rw [htake]; rfl

/-- The hypotheses are met by an ordinary URI with everything in it. -/
example : (unmarshalFromString fresh (bs "https://u@a.b:80/x:y/z?q=1:2?/#f?#g HTTP/1.1")).map
    (fun r => ([r.1.scheme, r.1.au.authority, r.1.path, r.1.query, r.1.fragment], r.2)) =
    some ([bs "https", bs "u@a.b:80", bs "/x:y/z", bs "q=1:2?/", bs "f?#g"], 35) := by decide +kernel

example : (⟨bs "/x:y/z", some (bs "q=1:2?/"), some (bs "f?#g")⟩ : Tail).WellFormed ∧
    (⟨bs "/x:y/z", some (bs "q=1:2?/"), some (bs "f?#g")⟩ : Tail).PlainFragment ∧
    Avoids (bs "u@a.b:80") "/?# " ∧ Avoids (bs "https") ":/?# " := by
  refine ⟨⟨by decide, by decide, ?_, ?_⟩, ?_, by decide, by decide⟩
  · intro q h; cases h; decide
  · intro f h; cases h; decide
  · intro h; cases h

/-- C96, origin form: a text `/path?query#fragment` without a colon is split into exactly these
parts; the object keeps its old scheme and authority.
Missing: texts with a colon in the path, without a path or with a question mark in the fragment,
and that a reused object forgets its old parts (refuted: `C96_old_parts_stay_violated`,
`C96_colon_in_path_violated`, `C96_no_path_violated` and others). -/
theorem C96_origin_form_partial (u : URI) (t : Tail) (rest : Bytes) (ht : t.WellFormed)
    (hf : t.PlainFragment) (hc : t.NoColon) (hr : Ends rest) :
    unmarshalFromString u (t.text ++ rest) =
      some (u.holding t.text u.scheme u.au.authority t, t.text.length) := by
  obtain ⟨p', hp⟩ : ∃ p', t.path = ch '/' :: p' := by
    have := ht.slash
    cases h : t.path with
    | nil => rw [h] at this; simp at this
    | cons a p' => rw [h] at this; simp at this; exact ⟨p', by rw [this]⟩
  generalize hS : t.text ++ rest = s
  have hS1 : s = [] ++ t.path ++ (withSign (ch '?') t.query ++ withSign (ch '#') t.fragment ++ rest) := by
    rw [← hS, Tail.text]; simp
  have hc0 : s[0]? = some (ch '/') := by rw [hS1, hp]; rfl
  have e5 := scan_inert (s := s) (o := true) (st := { u := u }) [] t.path _ hS1 (by
      intro d hd
      have hd' : d ∈ t.text := by simp [Tail.text, hd]
      exact ⟨not_of_avoids ht.path hd (by decide), fun e => absurd e (not_of_avoids hc hd' (by decide)),
        fun _ => Or.inr ⟨rfl, rfl⟩,
        fun e => absurd e (not_of_avoids ht.path hd (by decide)),
        fun e => absurd e (not_of_avoids ht.path hd (by decide))⟩)
  obtain ⟨st', e6, e7⟩ := scan_tail (s := s) (o := true) (st := { u := u }) [] t rest
    (by rw [← hS]; rfl) rfl rfl rfl (Or.inr ⟨rfl, rfl⟩) (Or.inr hc) ht hf hr
  rw [List.nil_append] at e6 e7
  have hscan : scan s (decide (ch '/' = ch '/')) 0 { u := u } = some (st', t.text.length) := by
    rw [decide_eq_true rfl]
    simp only [List.length_nil] at e5 e6
    rw [e5, e6]
  rw [parse_of hc0 (by decide) hscan e7 (by rw [← hS]; simp)]
  have htake : s.take t.text.length = t.text := by rw [← hS]; simp
  rw [htake]; rfl

example : (unmarshalFromString fresh (bs "/action/do?258=1#Test HTTP/1.1")).map
    (fun r => ([r.1.scheme, r.1.au.authority, r.1.path, r.1.query, r.1.fragment], r.2)) =
    some ([bs "", bs "", bs "/action/do", bs "258=1", bs "Test"], 21) := by decide +kernel

/-- C96, authority first: a text `host/path?query#fragment` without a colon is split into exactly
these parts; the object keeps its old scheme.
Missing: texts with a colon in the path, without a path or with a question mark in the fragment,
and that a reused object forgets its old parts (refuted: `C96_old_parts_stay_violated`,
`C96_colon_in_path_violated`, `C96_no_path_violated` and others). -/
theorem C96_host_form_partial (u : URI) (host : Bytes) (t : Tail) (rest : Bytes)
    (hne : host ≠ []) (hh : Avoids host ":/?# ") (hstar : host.head? ≠ some (ch '*'))
    (ht : t.WellFormed) (hf : t.PlainFragment) (hc : t.NoColon) (hr : Ends rest) :
    unmarshalFromString u (host ++ t.text ++ rest) =
      some (u.holding (host ++ t.text) u.scheme host t, (host ++ t.text).length) := by
  obtain ⟨c, host', rfl⟩ : ∃ c r, host = c :: r := by
    cases host with
    | nil => exact absurd rfl hne
    | cons c r => exact ⟨c, r, rfl⟩
  generalize hsc : c :: host' = host at *
  obtain ⟨p', hp⟩ : ∃ p', t.path = ch '/' :: p' := by
    have := ht.slash
    cases h : t.path with
    | nil => rw [h] at this; simp at this
    | cons a p' => rw [h] at this; simp at this; exact ⟨p', by rw [this]⟩
  generalize hS : host ++ t.text ++ rest = s
  have hS1 : s = [] ++ host ++ (t.text ++ rest) := by rw [← hS]; simp
  have hS3 : s = host ++
      (ch '/' :: (p' ++ withSign (ch '?') t.query ++ withSign (ch '#') t.fragment ++ rest)) := by
    rw [hS1, Tail.text, hp]; simp
  have hcs : c ∈ host := by rw [← hsc]; simp
  have hc0 : s[0]? = some c := by rw [hS1, ← hsc]; rfl
  have hsl : decide (c = ch '/') = false := by
    rw [decide_eq_false_iff_not]; exact not_of_avoids hh hcs (by decide)
  have hstar' : c ≠ ch '*' := by rw [← hsc] at hstar; simpa using hstar
  have hpos : host.length ≠ 0 := by rw [← hsc]; simp
  have e1 := scan_inert (s := s) (o := false) (st := { u := u }) [] host _ hS1 (by
      intro d hd
      exact ⟨not_of_avoids hh hd (by decide), fun e => absurd e (not_of_avoids hh hd (by decide)),
        fun e => absurd e (not_of_avoids hh hd (by decide)),
        fun e => absurd e (not_of_avoids hh hd (by decide)),
        fun e => absurd e (not_of_avoids hh hd (by decide))⟩)
  simp only [List.length_nil, Nat.zero_add] at e1
  have hc4 : s[host.length]? = some (ch '/') := by rw [hS3]; simp
  have hon : onSlash s false host.length { u := u } =
      some { u := { u with au := { u.au with authority := host } }, pS := host.length } := by
    rw [onSlash, if_neg (by simp), if_pos ⟨rfl, rfl, hpos⟩,
      slice_mid' s [] host (t.text ++ rest) 0 host.length hS1 rfl (by simp)]
    rfl
  have e4 := scan_slash (o := false) hc4 hon
  have e5 := scan_inert (s := s) (o := false)
    (st := { u := { u with au := { u.au with authority := host } }, pS := host.length })
    (host ++ [ch '/']) p'
    (withSign (ch '?') t.query ++ withSign (ch '#') t.fragment ++ rest) (by rw [hS3]; simp) (by
      intro d hd
      have hd' : d ∈ t.path := by rw [hp]; simp [hd]
      have hd'' : d ∈ t.text := by simp [Tail.text, hd']
      exact ⟨not_of_avoids ht.path hd' (by decide),
        fun e => absurd e (not_of_avoids hc hd'' (by decide)), fun _ => Or.inl hpos,
        fun e => absurd e (not_of_avoids ht.path hd' (by decide)),
        fun e => absurd e (not_of_avoids ht.path hd' (by decide))⟩)
  obtain ⟨st', e6, e7⟩ := scan_tail (s := s) (o := false)
    (st := { u := { u with au := { u.au with authority := host } }, pS := host.length })
    host t rest hS.symm rfl rfl rfl (Or.inl hpos) (Or.inr hc) ht hf hr
  rw [List.length_append, List.length_singleton] at e5
  rw [hp, List.length_cons] at e6
  have hscan : scan s (decide (c = ch '/')) 0 { u := u } = some (st', (host ++ t.text).length) := by
    rw [hsl, e1, e4, e5, ← e6]
    congr 1; omega
  rw [parse_of hc0 hstar' hscan e7 (by rw [← hS]; simp)]
  have htake : s.take (host ++ t.text).length = host ++ t.text := by
    rw [← hS]; exact List.take_left' rfl
  rw [htake]; rfl

example : (unmarshalFromString fresh (bs "www.sabz.city/m?258#api ")).map
    (fun r => ([r.1.scheme, r.1.au.authority, r.1.path, r.1.query, r.1.fragment], r.2)) =
    some ([bs "", bs "www.sabz.city", bs "/m", bs "258", bs "api"], 23) := by decide +kernel

/-- C96 is violated: an object that is used again keeps the query and the fragment of the URI it held
before when the new text has none. -/
theorem C96_old_parts_stay_violated (u : URI) (path rest : Bytes)
    (h : path.head? = some (ch '/')) (hp : Avoids path ":?# ") (hr : Ends rest) :
    ∃ u', unmarshalFromString u (path ++ rest) = some (u', path.length) ∧ u'.path = path ∧
      u'.scheme = u.scheme ∧ u'.au.authority = u.au.authority ∧
      u'.query = u.query ∧ u'.fragment = u.fragment := by
  have hsub : ∀ cs : String, (∀ c ∈ bs cs, c ∈ bs ":?# ") → Avoids path cs := by
    intro cs hcs c hc hcc; exact hp c hc (hcs c hcc)
  have ht : (⟨path, none, none⟩ : Tail).text = path := by simp [Tail.text, withSign]
  have := C96_origin_form_partial u ⟨path, none, none⟩ rest
    ⟨h, hsub _ (by decide), fun q e => by simp at e, fun f e => by simp at e⟩
    (fun _ f e => by simp at e) (by unfold Tail.NoColon; rw [ht]; exact hsub _ (by decide)) hr
  rw [ht] at this
  exact ⟨_, this, rfl, rfl, rfl, rfl, rfl⟩

example := C96_old_parts_stay_violated { fresh with query := bs "old=1", fragment := bs "f" } (bs "/x/y") (bs " HTTP/1.1") (by decide) (by decide) (.inr rfl)

/-! ## C97: reading never panics -/

/-- Fewer than two bytes after the first colon, with no space before it. -/
def ShortAfterColon (s : Bytes) : Prop :=
  ∃ pre post, s = pre ++ ch ':' :: post ∧ Avoids pre ": " ∧ post.length < 2

theorem avoids_cons {c : Byte} {t : Bytes} {cs : String} :
    Avoids (c :: t) cs ↔ c ∉ bs cs ∧ Avoids t cs := by
  simp [Avoids]

theorem shortAfterColon_nil : ¬ ShortAfterColon [] := by
  rintro ⟨pre, post, h, _⟩; simp at h

theorem shortAfterColon_colon (r : Bytes) : ShortAfterColon (ch ':' :: r) ↔ r.length < 2 := by
  constructor
  · rintro ⟨pre, post, h, ha, hl⟩
    cases pre with
    | nil => simp at h; rw [h]; exact hl
    | cons d pre =>
      simp only [List.cons_append, List.cons.injEq] at h
      exact absurd (show ch ':' ∈ bs ": " by decide) (by rw [h.1]; exact (avoids_cons.mp ha).1)
  · intro h; exact ⟨[], r, rfl, by simp [Avoids], h⟩

theorem shortAfterColon_space (r : Bytes) : ¬ ShortAfterColon (ch ' ' :: r) := by
  rintro ⟨pre, post, h, ha, hl⟩
  cases pre with
  | nil => simp at h; exact absurd h.1 (by decide)
  | cons d pre =>
    simp only [List.cons_append, List.cons.injEq] at h
    exact absurd (show ch ' ' ∈ bs ": " by decide) (by rw [h.1]; exact (avoids_cons.mp ha).1)

theorem shortAfterColon_cons {c : Byte} {r : Bytes} (h1 : c ≠ ch ':') (h2 : c ≠ ch ' ') :
    ShortAfterColon (c :: r) ↔ ShortAfterColon r := by
  have hc : c ∉ bs ": " := by
    have : bs ": " = [ch ':', ch ' '] := by decide
    rw [this]; simp [h1, h2]
  constructor
  · rintro ⟨pre, post, h, ha, hl⟩
    cases pre with
    | nil => simp at h; exact absurd h.1 h1
    | cons d pre =>
      simp only [List.cons_append, List.cons.injEq] at h
      exact ⟨pre, post, h.2, (avoids_cons.mp ha).2, hl⟩
  · rintro ⟨pre, post, h, ha, hl⟩
    exact ⟨c :: pre, post, by rw [h]; rfl, avoids_cons.mpr ⟨hc, ha⟩, hl⟩

/-- The indices the loop remembers lie before the place it is at. -/
structure Inv (st : Scan) (i : Nat) : Prop where
  aS : st.aS ≤ i
  pS : st.pS ≤ i
  qI : st.qI ≠ 0 → st.qI + 1 ≤ i
  nI : st.nI ≠ 0 → st.nI + 1 ≤ i

theorem slice_ok {s : Bytes} {i j : Nat} (h : i ≤ j) (h' : j ≤ s.length) :
    slice s i j = some ((s.take j).drop i) := by rw [slice, if_pos ⟨h, h'⟩]

theorem onSlash_ok {s : Bytes} {o : Bool} {i : Nat} {st : Scan} (h : Inv st i) (hi : i < s.length) :
    ∃ st', onSlash s o i st = some st' ∧ Inv st' (i + 1) ∧ st'.aS = st.aS ∧
      st'.u.scheme = st.u.scheme := by
  obtain ⟨h1, h2, h3, h4⟩ := h
  unfold onSlash
  split
  · rw [slice_ok h1 (by omega)]
    refine ⟨_, rfl, ⟨?_, ?_, ?_, ?_⟩, rfl, rfl⟩ <;> simp only [] <;> first | omega | (intro h; have := h3 h; omega) | (intro h; have := h4 h; omega)
  · split
    · rw [slice_ok (Nat.zero_le _) (by omega)]
      refine ⟨_, rfl, ⟨?_, ?_, ?_, ?_⟩, rfl, rfl⟩ <;> simp only [] <;> first | omega | (intro h; have := h3 h; omega) | (intro h; have := h4 h; omega)
    · exact ⟨st, rfl, ⟨by omega, by omega, fun h => by have := h3 h; omega,
        fun h => by have := h4 h; omega⟩, rfl, rfl⟩

theorem onQuestion_ok {s : Bytes} {i : Nat} {st : Scan} (h : Inv st i) (hi : i < s.length) :
    ∃ st', onQuestion s i st = some st' ∧ Inv st' (i + 1) ∧ st'.aS = st.aS ∧
      st'.u.scheme = st.u.scheme := by
  obtain ⟨h1, h2, h3, h4⟩ := h
  unfold onQuestion
  split
  · rw [slice_ok h2 (by omega)]
    refine ⟨_, rfl, ⟨?_, ?_, ?_, ?_⟩, rfl, rfl⟩ <;> simp only [] <;> first | omega | (intro h; have := h4 h; omega)
  · exact ⟨st, rfl, ⟨by omega, by omega, fun h => by have := h3 h; omega,
      fun h => by have := h4 h; omega⟩, rfl, rfl⟩

theorem onNumber_ok {s : Bytes} {i : Nat} {st : Scan} (h : Inv st i) (hi : i < s.length) :
    ∃ st', onNumber s i st = some st' ∧ Inv st' (i + 1) ∧ st'.aS = st.aS ∧
      st'.u.scheme = st.u.scheme := by
  obtain ⟨h1, h2, h3, h4⟩ := h
  unfold onNumber
  split
  · split
    · rw [slice_ok h2 (by omega)]
      refine ⟨_, rfl, ⟨?_, ?_, ?_, ?_⟩, rfl, rfl⟩ <;> simp only [] <;> first | omega | (intro h; have := h3 h; omega)
    · rename_i hq
      rw [slice_ok (h3 hq) (by omega)]
      refine ⟨_, rfl, ⟨?_, ?_, ?_, ?_⟩, rfl, rfl⟩ <;> simp only [] <;> first | omega | (intro h; have := h3 h; omega)
  · exact ⟨st, rfl, ⟨by omega, by omega, fun h => by have := h3 h; omega,
      fun h => by have := h4 h; omega⟩, rfl, rfl⟩

theorem scan_total (s : Bytes) (o : Bool) (n : Nat) : ∀ (i : Nat) (st : Scan), s.length - i ≤ n →
    Inv st i → ∃ st' e, scan s o i st = some (st', e) ∧ Inv st' e ∧ i ≤ e ∧
      (i ≤ s.length → (s.length < e ↔ st.aS = 0 ∧ ShortAfterColon (s.drop i))) ∧
      (st.aS ≠ 0 → st'.u.scheme = st.u.scheme) := by
  induction n with
  | zero =>
    intro i st hn hinv
    have hget : s[i]? = none := List.getElem?_eq_none (by omega)
    have hdrop : s.drop i = [] := List.drop_of_length_le (by omega)
    refine ⟨st, i, ?_, hinv, Nat.le_refl _, fun _ => ?_, fun _ => rfl⟩
    · rw [scan]; split
      · rfl
      · rename_i c e; rw [hget] at e; cases e
    · rw [hdrop]
      exact ⟨fun h => by omega, fun h => absurd h.2 shortAfterColon_nil⟩
  | succ n ih =>
    intro i st hn hinv
    cases hget : s[i]? with
    | none =>
      have hle : s.length ≤ i := List.getElem?_eq_none_iff.mp hget
      have hdrop : s.drop i = [] := List.drop_of_length_le hle
      refine ⟨st, i, ?_, hinv, Nat.le_refl _, fun _ => ?_, fun _ => rfl⟩
      · rw [scan]; split
        · rfl
        · rename_i c e; rw [hget] at e; cases e
      · rw [hdrop]
        exact ⟨fun h => by omega, fun h => absurd h.2 shortAfterColon_nil⟩
    | some c =>
      have hi : i < s.length := (List.getElem?_eq_some_iff.mp hget).1
      have hdrop : s.drop i = c :: s.drop (i + 1) := by
        rw [List.drop_eq_getElem_cons hi]
        rw [(List.getElem?_eq_some_iff.mp hget).2]
      have hone : ∀ st2 : Scan, c ≠ ch ':' → c ≠ ch ' ' → scan s o i st = scan s o (i + 1) st2 →
          Inv st2 (i + 1) → st2.aS = st.aS → st2.u.scheme = st.u.scheme →
          ∃ st' e, scan s o i st = some (st', e) ∧ Inv st' e ∧ i ≤ e ∧
            (i ≤ s.length → (s.length < e ↔ st.aS = 0 ∧ ShortAfterColon (s.drop i))) ∧
            (st.aS ≠ 0 → st'.u.scheme = st.u.scheme) := by
        intro st2 c1 c2 hsc hinv2 ha hsch
        obtain ⟨st', e, r1, r2, r3, r4, r5⟩ := ih (i + 1) st2 (by omega) hinv2
        refine ⟨st', e, by rw [hsc, r1], r2, by omega, fun _ => ?_, fun h => ?_⟩
        · rw [r4 (by omega), ha, hdrop, shortAfterColon_cons c1 c2]
        · rw [r5 (by rw [ha]; exact h), hsch]
      have hinv1 : Inv st (i + 1) := by
        obtain ⟨h1, h2, h3, h4⟩ := hinv
        exact ⟨by omega, by omega, fun h => by have := h3 h; omega, fun h => by have := h4 h; omega⟩
      by_cases c1 : c = ch ':'
      · subst c1
        by_cases ha : st.aS = 0
        · have hs : s = s.take i ++ ch ':' :: s.drop (i + 1) := by
            rw [← hdrop]; simp
          have hl : (s.take i).length = i := by simp; omega
          have hsc := scan_colon (s := s) (o := o) (st := st) (s.take i) _ hs ha
          rw [hl] at hsc
          obtain ⟨st', e, r1, r2, r3, r4, r5⟩ := ih (i + 3)
            { st with aS := i + 3, u := { st.u with scheme := s.take i } } (by omega) (by
              obtain ⟨h1, h2, h3, h4⟩ := hinv
              exact ⟨Nat.le_refl _, by simp only []; omega, fun h => by have := h3 h; simp only []; omega,
                fun h => by have := h4 h; simp only []; omega⟩)
          refine ⟨st', e, by rw [hsc, r1], r2, by omega, fun _ => ?_, fun h => absurd ha h⟩
          rw [hdrop, shortAfterColon_colon, List.length_drop]
          by_cases hle : i + 3 ≤ s.length
          · rw [r4 hle]
            constructor
            · rintro ⟨h, _⟩; simp only [] at h; omega
            · rintro ⟨_, h⟩; omega
          · constructor
            · intro _; exact ⟨ha, by omega⟩
            · intro _; omega
        · have hsc : scan s o i st = scan s o (i + 1) st :=
            scan_step_inert hget ⟨by decide, fun _ => ha, fun e => absurd e (by decide),
              fun e => absurd e (by decide), fun e => absurd e (by decide)⟩
          obtain ⟨st', e, r1, r2, r3, r4, r5⟩ := ih (i + 1) st (by omega) hinv1
          refine ⟨st', e, by rw [hsc, r1], r2, by omega, fun _ => ?_, r5⟩
          rw [r4 (by omega)]
          constructor <;> (rintro ⟨h, _⟩; exact absurd h ha)
      · by_cases c2 : c = ch ' '
        · subst c2
          refine ⟨st, i, ?_, hinv, Nat.le_refl _, fun _ => ?_, fun _ => rfl⟩
          · have := scan_end (s := s) (o := o) (st := st) (s.take i) (s.drop i) (by simp)
              (Or.inr (by rw [hdrop]; rfl))
            have hl : (s.take i).length = i := by simp; omega
            rw [hl] at this; exact this
          · rw [hdrop]
            exact ⟨fun h => by omega, fun h => absurd h.2 (shortAfterColon_space _)⟩
        · by_cases c3 : c = ch '/'
          · subst c3
            obtain ⟨st2, g1, g2, g3, g4⟩ := onSlash_ok (o := o) hinv hi
            exact hone st2 c1 c2 (scan_slash hget g1) g2 g3 g4
          · by_cases c4 : c = ch '?'
            · subst c4
              obtain ⟨st2, g1, g2, g3, g4⟩ := onQuestion_ok hinv hi
              exact hone st2 c1 c2 (scan_question hget g1) g2 g3 g4
            · by_cases c5 : c = ch '#'
              · subst c5
                obtain ⟨st2, g1, g2, g3, g4⟩ := onNumber_ok hinv hi
                exact hone st2 c1 c2 (scan_number hget g1) g2 g3 g4
              · exact hone st c1 c2 (scan_step_inert hget ⟨c2, fun e => absurd e c1,
                  fun e => absurd e c3, fun e => absurd e c4, fun e => absurd e c5⟩) hinv1 rfl rfl

theorem inv_init (u : URI) : Inv { u := u } 0 :=
  ⟨Nat.le_refl _, Nat.le_refl _, fun h => absurd rfl h, fun h => absurd rfl h⟩

theorem finish_ok {s : Bytes} {st : Scan} {e : Nat} (h : Inv st e) (he : e ≤ s.length) :
    ∃ u', finish s st e = some u' ∧ u'.scheme = st.u.scheme := by
  obtain ⟨h1, h2, h3, h4⟩ := h
  unfold finish endPath endFragment endQuery
  by_cases hq : st.qI = 0 <;> by_cases hn : st.nI = 0
  · simp [hq, hn, slice_ok h2 he]
  · simp [hq, hn, slice_ok (h4 hn) he]
  · simp [hq, hn, slice_ok (h3 hq) he]
  · simp [hq, hn, slice_ok (h4 hn) he]

/-- C212: exactly when reading a URI panics: on the empty text, and when the first colon before any
space is followed by fewer than two bytes (and the text does not start with an asterisk).
Missing: that those texts return an error (refuted: `C212_trailing_colon_violated`). -/
theorem C212_panics_iff_partial (u : URI) (s : Bytes) :
    unmarshalFromString u s = none ↔
      s = [] ∨ (s.head? ≠ some (ch '*') ∧ ShortAfterColon s) := by
  cases hs : s with
  | nil => simp [unmarshalFromString]
  | cons c r =>
    rw [← hs]
    have h0 : s[0]? = some c := by rw [hs]; rfl
    have hh : s.head? = some c := by rw [hs]; rfl
    have hne : s ≠ [] := by rw [hs]; simp
    unfold unmarshalFromString
    rw [h0]
    simp only
    by_cases hc : c = ch '*'
    · rw [if_pos hc]
      have : sliceTo s 1 = some (s.take 1) := by rw [sliceTo, if_pos (by rw [hs]; simp)]
      rw [this]
      simp [hne, hh, hc]
    · rw [if_neg hc]
      obtain ⟨st', e, r1, r2, _, r4, _⟩ :=
        scan_total s (decide (c = ch '/')) s.length 0 { u := u } (by omega) (inv_init u)
      rw [r1]
      simp only
      have r4' := r4 (Nat.zero_le _)
      rw [List.drop_zero] at r4'
      have hne' : ¬ s.head? = some (ch '*') := by rw [hh]; simpa using hc
      by_cases he : e ≤ s.length
      · obtain ⟨u', f1, _⟩ := finish_ok r2 he
        rw [f1]
        simp only [sliceTo, if_pos he]
        have : ¬ ShortAfterColon s := fun h => by have := r4'.mpr ⟨rfl, h⟩; omega
        simp [hne, this]
      · have hshort := (r4'.mp (by omega)).2
        constructor
        · intro _; exact Or.inr ⟨hne', hshort⟩
        · intro _
          cases hf : finish s st' e with
          | none => rfl
          | some u' => simp only [sliceTo, if_neg he]; rfl

/-- C212 is violated by ordinary request lines: every path that ends in a colon, as the last thing
read, panics. -/
theorem C212_trailing_colon_violated (u : URI) (path : Bytes) (h : path.head? = some (ch '/'))
    (hp : Avoids path ": ") : unmarshalFromString u (path ++ [ch ':']) = none := by
  rw [C212_panics_iff_partial]
  right
  refine ⟨?_, path, [], rfl, hp, by simp⟩
  cases path with
  | nil => simp at h
  | cons a p =>
    simp only [List.head?_cons, Option.some.injEq] at h
    rw [h, List.cons_append, List.head?_cons]
    intro e
    exact absurd (Option.some.inj e) (by decide)

example : unmarshalFromString fresh (bs "/time/12:") = none := by decide +kernel

/-- C96 is violated: in an origin-form text with a colon, everything before the colon is taken for
the scheme (and the text is read, if two bytes follow the colon). -/
theorem C96_colon_in_path_violated (u : URI) (path post : Bytes) (h : path.head? = some (ch '/'))
    (hp : Avoids path ": ") (hl : 2 ≤ post.length) :
    ∃ u' e, unmarshalFromString u (path ++ ch ':' :: post) = some (u', e) ∧ u'.scheme = path ∧
      u'.isAbs = true ∧ path.length + 3 ≤ e := by
  obtain ⟨p', rfl⟩ : ∃ p', path = ch '/' :: p' := by
    cases path with
    | nil => simp at h
    | cons a p => simp at h; exact ⟨p, by rw [h]⟩
  generalize hpath : ch '/' :: p' = path at *
  generalize hs : path ++ ch ':' :: post = s
  have h0 : s[0]? = some (ch '/') := by rw [← hs, ← hpath]; rfl
  have hnp : ¬ ShortAfterColon s := by
    rintro ⟨pre, post', e, ha, hl'⟩
    have : indexByte s (ch ':') = some path.length := by
      rw [← hs]; exact indexByte_append _ _ _ (fun hc => hp _ hc (by decide))
    have h2 : indexByte s (ch ':') = some pre.length := by
      rw [e]; exact indexByte_append _ _ _ (fun hc => ha _ hc (by decide))
    rw [this] at h2
    have h3 := congrArg List.length (hs.trans e)
    simp only [List.length_append, List.length_cons] at h3
    have := Option.some.inj h2
    omega
  have hsome : unmarshalFromString u s ≠ none := by
    rw [Ne, C212_panics_iff_partial]
    rintro (e | e)
    · rw [e] at h0; simp at h0
    · exact hnp e.2
  -- up to the colon the scheme is untouched, there it is set and then never changed
  obtain ⟨st1, hst1, hinv1, ha1⟩ : ∃ st1, scan s true 0 { u := u } = scan s true path.length st1 ∧
      Inv st1 path.length ∧ st1.aS = 0 := by
    have key : ∀ (mid pre : Bytes) (st : Scan), pre ++ mid = path → Inv st pre.length → st.aS = 0 →
        ∃ st1, scan s true pre.length st = scan s true path.length st1 ∧
          Inv st1 path.length ∧ st1.aS = 0 := by
      intro mid
      induction mid with
      | nil => intro pre st e hi ha; rw [List.append_nil] at e; subst e; exact ⟨st, rfl, hi, ha⟩
      | cons c mid ih =>
        intro pre st e hi ha
        have hlt : pre.length < s.length := by rw [← hs, ← e]; simp
        have hget : s[pre.length]? = some c := by rw [← hs, ← e]; simp
        have hcp : c ∈ path := by rw [← e]; simp
        have c1 : c ≠ ch ':' := not_of_avoids hp hcp (by decide)
        have c2 : c ≠ ch ' ' := not_of_avoids hp hcp (by decide)
        have next : ∀ st2 : Scan, scan s true pre.length st = scan s true (pre.length + 1) st2 →
            Inv st2 (pre.length + 1) → st2.aS = st.aS →
            ∃ st1, scan s true pre.length st = scan s true path.length st1 ∧
              Inv st1 path.length ∧ st1.aS = 0 := by
          intro st2 q1 q2 q3
          obtain ⟨st1, w1, w2, w3⟩ := ih (pre ++ [c]) st2 (by rw [← e]; simp)
            (by simpa using q2) (by rw [q3, ha])
          refine ⟨st1, ?_, w2, w3⟩
          rw [q1, ← w1]; simp
        by_cases c3 : c = ch '/'
        · subst c3
          obtain ⟨st2, g1, g2, g3, g4⟩ := onSlash_ok (o := true) hi hlt
          exact next st2 (scan_slash hget g1) g2 g3
        · by_cases c4 : c = ch '?'
          · subst c4
            obtain ⟨st2, g1, g2, g3, g4⟩ := onQuestion_ok hi hlt
            exact next st2 (scan_question hget g1) g2 g3
          · by_cases c5 : c = ch '#'
            · subst c5
              obtain ⟨st2, g1, g2, g3, g4⟩ := onNumber_ok hi hlt
              exact next st2 (scan_number hget g1) g2 g3
            · refine next st (scan_step_inert hget ⟨c2, fun e => absurd e c1,
                  fun e => absurd e c3, fun e => absurd e c4, fun e => absurd e c5⟩) ?_ rfl
              obtain ⟨h1, h2, h3, h4⟩ := hi
              exact ⟨by omega, by omega, fun h => by have := h3 h; omega, fun h => by have := h4 h; omega⟩
    exact key path [] _ rfl (inv_init u) rfl
  have hcol := scan_colon (s := s) (o := true) (st := st1) path post hs.symm ha1
  obtain ⟨st', e, r1, r2, r3, r4, r5⟩ := scan_total s true s.length (path.length + 3)
    { st1 with aS := path.length + 3, u := { st1.u with scheme := path } } (by omega) (by
      obtain ⟨h1, h2, h3, h4⟩ := hinv1
      exact ⟨Nat.le_refl _, by simp only []; omega, fun h => by have := h3 h; simp only []; omega,
        fun h => by have := h4 h; simp only []; omega⟩)
  have hsl : s.length = path.length + 1 + post.length := by rw [← hs]; simp; omega
  have he : e ≤ s.length := by
    have := r4 (by omega)
    apply Decidable.byContradiction
    intro hc
    have := (this.mp (by omega)).1
    simp at this
  obtain ⟨u', f1, f2⟩ := finish_ok r2 he
  have hscan : scan s (decide (ch '/' = ch '/')) 0 { u := u } = some (st', e) := by
    rw [decide_eq_true rfl, hst1, hcol, r1]
  refine ⟨_, e, parse_of h0 (by decide) hscan f1 he, ?_, ?_, r3⟩
  · rw [f2, r5 (by simp)]
  · rw [URI.isAbs, f2, r5 (by simp), ← hpath]; rfl

/-- The request line `GET /a: HTTP/1.1`: the space after the colon is swallowed, the URI goes on
into the rest of the line, and its scheme is `/a`. -/
example : (unmarshalFromString fresh (bs "/a: HTTP/1.1 x")).map
    (fun r => (r.1.scheme, r.1.uri, r.2)) = some (bs "/a", bs "/a: HTTP/1.1", 12) := by
  decide +kernel

/-- C97: whatever was read, the text of the URI and the remaining data together are the data. -/
theorem C97_nothing_lost (u u' : URI) (data rest : Bytes) (h : u.unmarshalFrom data = some (u', rest)) :
    u'.uri ++ rest = data ∧ u'.raw = some u'.uri := by
  unfold URI.unmarshalFrom at h
  split at h
  · cases h
  · rename_i v e hu
    unfold sliceFrom at h
    split at h
    · simp only [Option.map_some, Option.some.injEq, Prod.mk.injEq] at h
      obtain ⟨rfl, rfl⟩ := h
      have huri : v.uri = data.take e ∧ v.raw = some v.uri := by
        unfold unmarshalFromString at hu
        split at hu
        · cases hu
        · split at hu
          · unfold sliceTo at hu; split at hu
            · simp only [Option.map_some, Option.some.injEq, Prod.mk.injEq] at hu
              rw [← hu.1, ← hu.2]; exact ⟨rfl, rfl⟩
            · cases hu
          · split at hu
            · cases hu
            · split at hu
              · cases hu
              · unfold sliceTo at hu; split at hu
                · simp only [Option.map_some, Option.some.injEq, Prod.mk.injEq] at hu
                  rw [← hu.1, ← hu.2]; exact ⟨rfl, rfl⟩
                · cases hu
      rw [huri.1]
      exact ⟨List.take_append_drop e data, by rw [huri.2, huri.1]⟩
    · cases h

example := C97_nothing_lost fresh _ (bs "https://a.b/x?q HTTP/1.1") _
  (Option.some_get (show (fresh.unmarshalFrom (bs "https://a.b/x?q HTTP/1.1")).isSome by decide +kernel)).symm

end Memar.Uri
