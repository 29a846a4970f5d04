import Verif.Uri.ParseProps

/-! # More texts that are read wrongly (C96) -/

namespace Memar.Uri

/-- C96 is violated: in `scheme://authority` without a slash after the authority, the authority is not
found (the object keeps its old one) and the whole text is taken for the path. -/
theorem C96_no_path_violated (u : URI) (scheme authority rest : Bytes)
    (hne : scheme ≠ []) (hs : Avoids scheme ":/?# ") (hstar : scheme.head? ≠ some (ch '*'))
    (ha : Avoids authority "/?# ") (hr : Ends rest) :
    ∃ u', unmarshalFromString u (scheme ++ bs "://" ++ authority ++ rest) =
        some (u', (scheme ++ bs "://" ++ authority).length) ∧
      u'.scheme = scheme ∧ u'.au = u.au ∧ u'.path = scheme ++ bs "://" ++ authority := by
  obtain ⟨c, scheme', rfl⟩ : ∃ c r, scheme = c :: r := by
    cases scheme with
    | nil => exact absurd rfl hne
    | cons c r => exact ⟨c, r, rfl⟩
  generalize hsc : c :: scheme' = scheme at *
  have hcol : bs "://" = [ch ':', ch '/', ch '/'] := by decide
  generalize hS : scheme ++ bs "://" ++ authority ++ rest = s
  have hS1 : s = scheme ++ ch ':' :: ([ch '/', ch '/'] ++ authority ++ rest) := by
    rw [← hS, hcol]; simp
  have hpre : (scheme ++ bs "://").length = scheme.length + 3 := by rw [List.length_append, hcol]; rfl
  have hcs : c ∈ scheme := by rw [← hsc]; simp
  have hc0 : s[0]? = some c := by rw [hS1, ← hsc]; rfl
  have hsl : decide (c = ch '/') = false := by
    rw [decide_eq_false_iff_not]; exact not_of_avoids hs hcs (by decide)
  have hstar' : c ≠ ch '*' := by rw [← hsc] at hstar; simpa using hstar
  have e1 := scan_inert (s := s) (o := false) (st := { u := u }) [] scheme
    (ch ':' :: ([ch '/', ch '/'] ++ authority ++ rest)) (by rw [hS1]; rfl) (by
      intro d hd
      exact ⟨not_of_avoids hs hd (by decide), fun e => absurd e (not_of_avoids hs hd (by decide)),
        fun e => absurd e (not_of_avoids hs hd (by decide)),
        fun e => absurd e (not_of_avoids hs hd (by decide)),
        fun e => absurd e (not_of_avoids hs hd (by decide))⟩)
  simp only [List.length_nil, Nat.zero_add] at e1
  have e2 := scan_colon (s := s) (o := false) (st := { u := u }) scheme _ hS1 rfl
  have e3 := scan_inert (s := s) (o := false)
    (st := { u := { u with scheme := scheme }, aS := scheme.length + 3 })
    (scheme ++ bs "://") authority rest hS.symm (by
      intro d hd
      exact ⟨not_of_avoids ha hd (by decide), fun _ => by simp,
        fun e => absurd e (not_of_avoids ha hd (by decide)),
        fun e => absurd e (not_of_avoids ha hd (by decide)),
        fun e => absurd e (not_of_avoids ha hd (by decide))⟩)
  rw [hpre] at e3
  have e4 := scan_end (s := s) (o := false)
    (st := { u := { u with scheme := scheme }, aS := scheme.length + 3 })
    (scheme ++ bs "://" ++ authority) rest hS.symm hr
  have hlen : (scheme ++ bs "://" ++ authority).length = scheme.length + 3 + authority.length := by
    rw [List.length_append, hpre]
  have hscan : scan s (decide (c = ch '/')) 0 { u := u } =
      some ({ u := { u with scheme := scheme }, aS := scheme.length + 3 },
        (scheme ++ bs "://" ++ authority).length) := by
    rw [hsl, e1, e2, e3, ← e4, hlen]
  have hslice : slice s 0 (scheme ++ bs "://" ++ authority).length =
      some (scheme ++ bs "://" ++ authority) :=
    slice_mid' s [] _ rest 0 _ (by rw [← hS]; rfl) rfl (by simp)
  have hfin : finish s { u := { u with scheme := scheme }, aS := scheme.length + 3 }
      (scheme ++ bs "://" ++ authority).length =
      some { u with scheme := scheme, path := scheme ++ bs "://" ++ authority } := by
    unfold finish endPath endFragment endQuery
    simp only [and_self, if_true, hslice]
    rfl
  refine ⟨_, parse_of hc0 hstar' hscan hfin (by rw [← hS]; simp), rfl, rfl, rfl⟩

example : (unmarshalFromString fresh (bs "http://sabz.city")).map
    (fun r => [r.1.scheme, r.1.au.authority, r.1.path]) =
    some [bs "http", bs "", bs "http://sabz.city"] := by decide +kernel

/-- C96 is violated: a question mark in the fragment of a text without a query: the path then contains
the number sign and the fragment up to the question mark. -/
theorem C96_question_in_fragment_violated (u : URI) (path f1 f2 rest : Bytes)
    (h : path.head? = some (ch '/')) (hp : Avoids path ":?# ") (h1 : Avoids f1 ":? ")
    (h2 : Avoids f2 ": ") (hr : Ends rest) :
    ∃ u', unmarshalFromString u (path ++ bs "#" ++ f1 ++ bs "?" ++ f2 ++ rest) =
        some (u', (path ++ bs "#" ++ f1 ++ bs "?" ++ f2).length) ∧
      u'.path = path ++ bs "#" ++ f1 ∧ u'.fragment = f1 ++ bs "?" ++ f2 := by
  have b1 : bs "#" = [ch '#'] := by decide
  have b2 : bs "?" = [ch '?'] := by decide
  obtain ⟨p', hpath⟩ : ∃ p', path = ch '/' :: p' := by
    cases path with
    | nil => simp at h
    | cons a p => simp at h; exact ⟨p, by rw [h]⟩
  have hpl : path.length ≠ 0 := by rw [hpath]; simp
  rw [b1, b2]
  generalize hS : path ++ [ch '#'] ++ f1 ++ [ch '?'] ++ f2 ++ rest = s
  have hc0 : s[0]? = some (ch '/') := by rw [← hS, hpath]; rfl
  have e1 := scan_inert (s := s) (o := true) (st := { u := u }) [] path
    ([ch '#'] ++ f1 ++ [ch '?'] ++ f2 ++ rest) (by rw [← hS]; simp) (by
      intro d hd
      exact ⟨not_of_avoids hp hd (by decide), fun e => absurd e (not_of_avoids hp hd (by decide)),
        fun _ => Or.inr ⟨rfl, rfl⟩,
        fun e => absurd e (not_of_avoids hp hd (by decide)),
        fun e => absurd e (not_of_avoids hp hd (by decide))⟩)
  simp only [List.length_nil, Nat.zero_add] at e1
  have hc1 : s[path.length]? = some (ch '#') := by rw [← hS]; simp
  have hon : onNumber s path.length { u := u } =
      some { u := { u with path := path }, nI := path.length } := by
    rw [onNumber, if_pos rfl, if_pos rfl,
      slice_mid' s [] path ([ch '#'] ++ f1 ++ [ch '?'] ++ f2 ++ rest) 0 path.length
        (by rw [← hS]; simp) rfl (by simp)]
    rfl
  have e2 := scan_number (o := true) hc1 hon
  have e3 := scan_inert (s := s) (o := true) (st := { u := { u with path := path }, nI := path.length })
    (path ++ [ch '#']) f1 ([ch '?'] ++ f2 ++ rest) (by rw [← hS]; simp) (by
      intro d hd
      exact ⟨not_of_avoids h1 hd (by decide), fun e => absurd e (not_of_avoids h1 hd (by decide)),
        fun _ => Or.inr ⟨rfl, rfl⟩,
        fun e => absurd e (not_of_avoids h1 hd (by decide)), fun _ => hpl⟩)
  have hl1 : (path ++ [ch '#']).length = path.length + 1 := by simp
  rw [hl1] at e3
  have hl2 : (path ++ [ch '#'] ++ f1).length = path.length + 1 + f1.length := by
    rw [List.length_append, hl1]
  have hc2 : s[path.length + 1 + f1.length]? = some (ch '?') := by
    rw [← hS, ← hl2, List.append_assoc, List.append_assoc,
      List.getElem?_append_right (Nat.le_refl _)]; simp
  have hon2 : onQuestion s (path.length + 1 + f1.length)
      { u := { u with path := path }, nI := path.length } =
      some { u := { u with path := path ++ [ch '#'] ++ f1 }, nI := path.length
             qI := path.length + 1 + f1.length } := by
    rw [onQuestion, if_pos rfl,
      slice_mid' s [] (path ++ [ch '#'] ++ f1) ([ch '?'] ++ f2 ++ rest) 0 _
        (by rw [← hS]; simp) rfl (by rw [hl2]; simp)]
    rfl
  have e4 := scan_question (o := true) hc2 hon2
  have e5 := scan_inert (s := s) (o := true)
    (st := { u := { u with path := path ++ [ch '#'] ++ f1 }, nI := path.length
             qI := path.length + 1 + f1.length })
    (path ++ [ch '#'] ++ f1 ++ [ch '?']) f2 rest hS.symm (by
      intro d hd
      exact ⟨not_of_avoids h2 hd (by decide), fun e => absurd e (not_of_avoids h2 hd (by decide)),
        fun _ => Or.inr ⟨rfl, rfl⟩, fun _ => by simp, fun _ => hpl⟩)
  have hl3 : (path ++ [ch '#'] ++ f1 ++ [ch '?']).length = path.length + 1 + f1.length + 1 := by
    rw [List.length_append, hl2]; rfl
  rw [hl3] at e5
  have e6 := scan_end (s := s) (o := true)
    (st := { u := { u with path := path ++ [ch '#'] ++ f1 }, nI := path.length
             qI := path.length + 1 + f1.length })
    (path ++ [ch '#'] ++ f1 ++ [ch '?'] ++ f2) rest hS.symm hr
  have hl4 : (path ++ [ch '#'] ++ f1 ++ [ch '?'] ++ f2).length =
      path.length + 1 + f1.length + 1 + f2.length := by rw [List.length_append, hl3]
  have hscan : scan s (decide (ch '/' = ch '/')) 0 { u := u } =
      some ({ u := { u with path := path ++ [ch '#'] ++ f1 }, nI := path.length
              qI := path.length + 1 + f1.length },
        (path ++ [ch '#'] ++ f1 ++ [ch '?'] ++ f2).length) := by
    rw [decide_eq_true rfl, e1, e2, e3, e4, e5, ← e6, hl4]
  have hfin : finish s { u := { u with path := path ++ [ch '#'] ++ f1 }, nI := path.length
                         qI := path.length + 1 + f1.length }
      (path ++ [ch '#'] ++ f1 ++ [ch '?'] ++ f2).length =
      some { u with path := path ++ [ch '#'] ++ f1, fragment := f1 ++ [ch '?'] ++ f2 } := by
    unfold finish endPath endFragment endQuery
    have hsl : slice s (path.length + 1) (path ++ [ch '#'] ++ f1 ++ [ch '?'] ++ f2).length =
        some (f1 ++ [ch '?'] ++ f2) :=
      slice_mid' s (path ++ [ch '#']) (f1 ++ [ch '?'] ++ f2) rest _ _ (by rw [← hS]; simp) hl1.symm
        (by rw [hl4, hl1]; simp; omega)
    rw [if_neg (by simp [hpl])]
    show (Option.bind (if _ then _ else _) _) = _
    rw [if_pos hpl, hsl]
    show (if _ then _ else _) = _
    rw [if_neg (by simp [hpl])]
  exact ⟨_, parse_of hc0 (by decide) hscan hfin (by rw [← hS]; simp), rfl, rfl⟩

example : (unmarshalFromString fresh (bs "/p#a?b HTTP/1.1")).map
    (fun r => [r.1.path, r.1.query, r.1.fragment]) =
    some [bs "/p#a", bs "", bs "a?b"] := by decide +kernel

end Memar.Uri
