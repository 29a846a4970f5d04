import Verif.Http.CookieProps

/-!
# Checked cookies come back as they were set: C316

A Set-Cookie that passes `CheckAndSanitize` (C17) is written (`Marshal`), read by the client (`Unmarshal`, C54), sent back in a Cookie line with others, and walked through by
the server (C249). The client is taken to store each cookie and to send `name=value` of each, as RFC 6265 asks.
-/

namespace Memar.Http
open Memar Memar.Http.Spec

/-- **C316**, the part that holds: Set-Cookies that pass the check, that have no semicolon in their texts and values that are not empty, are each read by the client as they were
set, with every attribute; and the server that is sent all of them back finds every one of them but the last, in order. Missing: values with semicolons (refuted:
`C316_path_injected_violated`, `C316_reader_panics_violated`) and the last cookie of the line (refuted: `C249_last_cookie_lost_violated`). -/
theorem C316_comes_back_partial (toLower : Bytes → Bytes) (hl : LowersAscii toLower) (parseIP : Bytes → Bool) (scs : List SetCookie)
    (hok : ∀ sc ∈ scs, sc.checkAndSanitize parseIP = (sc, none)) (hp : ∀ sc ∈ scs, SetCookie.Plain sc) (hn : ∀ sc ∈ scs, ch ';' ∉ sc.name ∧ sc.value ≠ [])
    (hb : ∀ sc ∈ scs, sc.sameSite = [] ∨ (sc.httpOnly = false ∧ sc.secure = false)) :
    scs.mapM (fun sc => SetCookie.unmarshal toLower {} (sc.checkAndSanitize parseIP).1.marshal) = some scs ∧
      cookiesLoop (scs.length + 1) (cookiesText (scs.map fun sc => ⟨sc.name, sc.value⟩)) = some ((scs.map fun sc => (⟨sc.name, sc.value⟩ : Cookie)).dropLast) := by
  constructor
  · clear hn
    induction scs with
    | nil => rfl
    | cons sc t ih =>
      rw [List.mapM_cons, hok sc List.mem_cons_self, C54_set_cookie_round_trip_partial toLower hl sc (hp sc List.mem_cons_self) (hb sc List.mem_cons_self),
        ih (fun x hx => hok x (List.mem_cons_of_mem _ hx)) (fun x hx => hp x (List.mem_cons_of_mem _ hx)) (fun x hx => hb x (List.mem_cons_of_mem _ hx))]
      rfl
  · refine C249_walk_reports_all_but_last_partial _ ?_ _ (by simp)
    intro c hc
    obtain ⟨sc, hs, rfl⟩ := List.mem_map.mp hc
    exact ⟨(hp sc hs).name.1, (hp sc hs).name.2, (hn sc hs).1, (hn sc hs).2, (hp sc hs).value⟩

/-- One turn of the loop. -/
private theorem turn (toLower : Bytes → Bytes) (sc : SetCookie) (s s' : Bytes) (semi : Nat) (val : Bytes) (h : semi + 2 ≤ s.length) (hs : s.drop (semi + 2) = s') :
    unmarshalLoop toLower sc s semi val = match indexByte s' (ch ';') with
      | none => (attrOf toLower s' s'.length val).bind fun a => some (sc.assign a.1 a.2)
      | some semi' => (attrOf toLower s' semi' val).bind fun a => unmarshalLoop toLower (sc.assign a.1 a.2) s' semi' a.2 := by
  subst hs
  rw [unmarshalLoop.eq_def, dif_pos h]
  dsimp only
  split
  · rename_i hx; rw [hx]; rfl
  · rename_i k hx; rw [hx]; rfl

/-- The byte after a semicolon is not looked at. -/
private theorem skipped (toLower : Bytes → Bytes) (sc : SetCookie) (v rest : Bytes) (x y : Byte) (val : Bytes) :
    unmarshalLoop toLower sc (v ++ ch ';' :: x :: rest) v.length val = unmarshalLoop toLower sc (v ++ ch ';' :: y :: rest) v.length val := by
  have hd : ∀ z : Byte, (v ++ ch ';' :: z :: rest).drop (v.length + 2) = rest := by
    intro z
    rw [show v ++ ch ';' :: z :: rest = (v ++ [ch ';', z]) ++ rest by simp]
    exact List.drop_left' (by simp)
  rw [turn toLower sc _ rest _ val (by simp) (hd x), turn toLower sc _ rest _ val (by simp) (hd y)]

private theorem read_skipped (toLower : Bytes → Bytes) (sc : SetCookie) (name v rest : Bytes) (x y : Byte) (hn : name ≠ []) (he : ch '=' ∉ name) (hv : ch ';' ∉ v) :
    SetCookie.unmarshal toLower sc (name ++ ch '=' :: (v ++ ch ';' :: x :: rest)) = SetCookie.unmarshal toLower sc (name ++ ch '=' :: (v ++ ch ';' :: y :: rest)) := by
  have h0 : ¬ name.length < 1 := by have := List.length_pos_iff.mpr hn; omega
  unfold SetCookie.unmarshal
  simp only [indexByte_append _ _ _ he, take_append_len, drop_append_len, if_neg h0, indexByte_append _ _ _ hv, skipped toLower _ v rest x y]

private theorem octet_semicolon {v : Bytes} (h : ∀ b ∈ v, CookieOctet b) : ch ';' ∉ v := fun hm => absurd (h _ hm) (by decide)

private theorem checked (parseIP : Bytes → Bool) (name value d : Bytes) (hb : 10#8 ∉ name ∧ 13#8 ∉ name) (hv : ∀ b ∈ value, CookieOctet b ∨ b = ch ';')
    (hd : sanitizeCookieDomain parseIP d = (d, none)) :
    SetCookie.checkAndSanitize parseIP { name := name, value := value, domain := d } = ({ name := name, value := value, domain := d }, none) := by
  have hc := C17_check_set_cookie_ok parseIP { name := name, value := value, domain := d }
  have h2 := hc.1.mpr ⟨hb, hv, (by intro b h; cases h), by rw [hd]⟩
  have h1 := hc.2 h2
  rw [hd] at h1
  exact Prod.ext h1 h2

/-- C316 violated: a cookie that passes the check is read as it was set. Every legal value followed by two semicolons, `Path=` and any legal text passes the check, and a client
reads the shorter value and a path that was never set. -/
theorem C316_path_injected_violated (toLower : Bytes → Bytes) (hl : LowersAscii toLower) (parseIP : Bytes → Bool) (name v p d : Bytes) (hn : name ≠ []) (he : ch '=' ∉ name)
    (hb : 10#8 ∉ name ∧ 13#8 ∉ name) (hv : ∀ b ∈ v, CookieOctet b) (hp : ∀ b ∈ p, CookieOctet b) (hpe : p ≠ []) (hd : sanitizeCookieDomain parseIP d = (d, none))
    (hds : ch ';' ∉ d) :
    SetCookie.checkAndSanitize parseIP { name := name, value := v ++ bs ";;Path=" ++ p, domain := d } =
        ({ name := name, value := v ++ bs ";;Path=" ++ p, domain := d }, none) ∧
      SetCookie.unmarshal toLower {} (SetCookie.marshal { name := name, value := v ++ bs ";;Path=" ++ p, domain := d }) =
        some { name := name, value := v, path := p, domain := d } := by
  constructor
  · refine checked parseIP name _ d hb ?_ hd
    intro b hm
    rcases List.mem_append.mp hm with hm | hm
    · rcases List.mem_append.mp hm with hm | hm
      · exact .inl (hv b hm)
      · exact (by decide +kernel : ∀ b ∈ bs ";;Path=", CookieOctet b ∨ b = ch ';') b hm
    · exact .inl (hp b hm)
  · have hde : d ≠ [] := by
      intro e; rw [e] at hd; exact absurd (congrArg Prod.snd hd) (by simp [sanitizeCookieDomain])
    have hdl : d.length > 0 := List.length_pos_iff.mpr hde
    have hpl : p.length > 0 := List.length_pos_iff.mpr hpe
    have e1 : SetCookie.marshal { name := name, value := v ++ bs ";;Path=" ++ p, domain := d } =
        name ++ ch '=' :: (v ++ ch ';' :: ch ';' :: (bs "Path=" ++ p ++ bs "; Domain=" ++ d)) := by
      simp [SetCookie.marshal, hdl, show bs ";;Path=" = ch ';' :: ch ';' :: bs "Path=" from rfl]
    have e2 : SetCookie.marshal { name := name, value := v, path := p, domain := d } =
        name ++ ch '=' :: (v ++ ch ';' :: ch ' ' :: (bs "Path=" ++ p ++ bs "; Domain=" ++ d)) := by
      simp [SetCookie.marshal, hdl, hpl, show bs "; Path=" = ch ';' :: ch ' ' :: bs "Path=" from rfl]
    rw [e1, read_skipped toLower {} name v _ (ch ';') (ch ' ') hn he (octet_semicolon hv), ← e2]
    exact C54_set_cookie_round_trip_partial toLower hl _ ⟨⟨hn, he⟩, octet_semicolon hv, octet_semicolon hp, hds, (by simp), (by simp), (by simp)⟩ (.inl rfl)

/-- C316 violated: a cookie that passes the check can be read. Every legal value followed by two semicolons and `HttpOnly` passes the check, and the client that reads the cookie
panics, whatever it held. -/
theorem C316_reader_panics_violated (toLower : Bytes → Bytes) (parseIP : Bytes → Bool) (name v d : Bytes) (hn : name ≠ []) (he : ch '=' ∉ name)
    (hb : 10#8 ∉ name ∧ 13#8 ∉ name) (hv : ∀ b ∈ v, CookieOctet b) (hd : sanitizeCookieDomain parseIP d = (d, none)) (sc0 : SetCookie) :
    SetCookie.checkAndSanitize parseIP { name := name, value := v ++ bs ";;HttpOnly", domain := d } =
        ({ name := name, value := v ++ bs ";;HttpOnly", domain := d }, none) ∧
      SetCookie.unmarshal toLower sc0 (SetCookie.marshal { name := name, value := v ++ bs ";;HttpOnly", domain := d }) = none := by
  constructor
  · refine checked parseIP name _ d hb ?_ hd
    intro b hm
    rcases List.mem_append.mp hm with hm | hm
    · exact .inl (hv b hm)
    · exact (by decide +kernel : ∀ b ∈ bs ";;HttpOnly", CookieOctet b ∨ b = ch ';') b hm
  · have hde : d ≠ [] := by
      intro e; rw [e] at hd; exact absurd (congrArg Prod.snd hd) (by simp [sanitizeCookieDomain])
    have hdl : d.length > 0 := List.length_pos_iff.mpr hde
    have hvs := octet_semicolon hv
    have h0 : ¬ name.length < 1 := by have := List.length_pos_iff.mpr hn; omega
    have e1 : SetCookie.marshal { name := name, value := v ++ bs ";;HttpOnly", domain := d } =
        name ++ ch '=' :: (v ++ ch ';' :: ch ';' :: (bs "HttpOnly" ++ ch ';' :: (bs " Domain=" ++ d))) := by
      simp [SetCookie.marshal, hdl, show bs ";;HttpOnly" = ch ';' :: ch ';' :: bs "HttpOnly" from rfl, show bs "; Domain=" = ch ';' :: bs " Domain=" from rfl]
    have hdrop : (v ++ ch ';' :: ch ';' :: (bs "HttpOnly" ++ ch ';' :: (bs " Domain=" ++ d))).drop (v.length + 2) = bs "HttpOnly" ++ ch ';' :: (bs " Domain=" ++ d) := by
      rw [show v ++ ch ';' :: ch ';' :: (bs "HttpOnly" ++ ch ';' :: (bs " Domain=" ++ d)) = (v ++ [ch ';', ch ';']) ++ (bs "HttpOnly" ++ ch ';' :: (bs " Domain=" ++ d)) by simp]
      exact List.drop_left' (by simp)
    have hsemi : indexByte (bs "HttpOnly" ++ ch ';' :: (bs " Domain=" ++ d)) (ch ';') = some (bs "HttpOnly").length := indexByte_append _ _ _ (by decide)
    have heq : indexByte (bs "HttpOnly" ++ ch ';' :: (bs " Domain=" ++ d)) (ch '=') = some (bs "HttpOnly; Domain").length := by
      rw [show bs "HttpOnly" ++ ch ';' :: (bs " Domain=" ++ d) = bs "HttpOnly; Domain" ++ ch '=' :: d from rfl]
      exact indexByte_append _ _ _ (by decide)
    have hattr : ∀ val, attrOf toLower (bs "HttpOnly" ++ ch ';' :: (bs " Domain=" ++ d)) (bs "HttpOnly").length val = none := by
      intro val
      unfold attrOf
      simp only [heq]
      have : slice (bs "HttpOnly" ++ ch ';' :: (bs " Domain=" ++ d)) ((bs "HttpOnly; Domain").length + 1) (bs "HttpOnly").length = none := by
        unfold slice
        rw [if_neg (by rw [show (bs "HttpOnly; Domain").length = 16 from rfl, show (bs "HttpOnly").length = 8 from rfl]; omega)]
      rw [this]
      cases sliceTo (bs "HttpOnly" ++ ch ';' :: (bs " Domain=" ++ d)) (bs "HttpOnly; Domain").length <;> rfl
    rw [e1]
    unfold SetCookie.unmarshal
    simp only [indexByte_append _ _ _ he, take_append_len, drop_append_len, if_neg h0, indexByte_append _ _ _ hvs]
    rw [turn toLower _ _ _ _ _ (by simp) hdrop, hsemi]
    simp only [hattr, Option.bind_none]

/-! ## Non-vacuity -/

private def exLower : Bytes → Bytes := fun s => s.map lowerByte

private def exSet : List SetCookie :=
  [{ name := bs "id", value := bs "a=1", path := bs "/a b", domain := bs "sabz.city", secure := true }, { name := bs "lang", value := bs "fa", domain := bs "sabz.city" }]

example := C316_comes_back_partial exLower (fun _ _ => rfl) (fun _ => false) exSet (by decide +kernel)
  (by
    intro sc h
    simp only [exSet, List.mem_cons, List.not_mem_nil, or_false] at h
    rcases h with rfl | rfl <;> exact ⟨by decide, by decide, by decide, by decide, by decide, by decide, by decide⟩) (by decide) (by decide)
example := C316_path_injected_violated exLower (fun _ _ => rfl) (fun _ => false) (bs "id") (bs "x") (bs "/admin") (bs "sabz.city") (by decide) (by decide) (by decide) (by decide)
  (by decide) (by decide) (by decide +kernel) (by decide)
example := C316_reader_panics_violated exLower (fun _ => false) (bs "id") (bs "x") (bs "sabz.city") (by decide) (by decide) (by decide) (by decide) (by decide +kernel)
  { name := bs "old" }

end Memar.Http
