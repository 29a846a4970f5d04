import Verif.Http.Exchange
import Verif.Http.HeaderProps
import Verif.Http.CookieProps
import Verif.Http.ServicesProps

/-! # C105–C110: cookie attributes, response status and errors, outgoing responses and requests -/

namespace Memar.Http
open Memar Memar.Decimal Spec

theorem set_some (h : Header) (key value : Bytes) : ∃ h', h.set key value = some h' :=
  ⟨_, C14_set_exact_partial h key value⟩

theorem get_absent (h : Header) (key : Bytes) (habs : ∀ p ∈ h.lines, p.1 ≠ key) : h.get key = [] := by
  have hv : valuesOf h.lines key = [] := by
    simp only [valuesOf, List.filterMap_eq_nil_iff]
    intro p hp; rw [if_neg (habs p hp)]
  rw [get_eq, firstValue, hv]; rfl

theorem get_add_absent (h : Header) (key value : Bytes) (habs : ∀ p ∈ h.lines, p.1 ≠ key) :
    (h.add key value).get key = value := by
  have hv : valuesOf h.lines key = [] := by
    simp only [valuesOf, List.filterMap_eq_nil_iff]
    intro p hp; rw [if_neg (habs p hp)]
  rw [get_eq, firstValue, Header.add, valuesOf_append, hv]; simp [valuesOf]

/-! ## C105 -/

theorem atoi_decDigits (n : Nat) (h : n < 2 ^ 63) : atoi (decDigits n) = some (n : Int) := by
  obtain ⟨hne, had, _⟩ := decDigits_canonical n
  have key : ∀ t : Bytes, t ≠ [] → AllDigits t → decVal t = n → atoi t = some (n : Int) := by
    intro t h1 h2 h3
    cases t with
    | nil => exact absurd rfl h1
    | cons c t =>
      have hc := h2 c (by simp)
      have e1 : c ≠ ch '-' := by rintro rfl; exact absurd hc.1 (by decide)
      have e2 : c ≠ ch '+' := by rintro rfl; exact absurd hc.1 (by decide)
      unfold atoi
      dsimp only
      rw [if_neg e1, if_neg e2, if_neg (by rintro (h | h); exact h1 h; exact h h2), h3]
      simp only [Option.map_some, Option.bind_some]
      rw [if_pos ⟨by omega, by omega⟩]
  exact key _ hne had (decVal_decDigits n)

/-- C105: the age written is the age read; ages below zero become zero. -/
theorem C105_max_age (sc : SetCookie) (n : Int) (h : n < 2 ^ 63) :
    (sc.setMaxAge n).getMaxAge = max n 0 := by
  unfold SetCookie.setMaxAge SetCookie.getMaxAge
  by_cases hn : n > 0
  · rw [if_pos hn]
    simp only
    rw [atoi_decDigits _ (by omega)]
    simp only [Option.getD_some]; omega
  · rw [if_neg hn]
    simp only
    have : atoi (bs "0") = some 0 := by decide +kernel
    rw [this]; simp only [Option.getD_some]; omega

example := C105_max_age { name := bs "a", value := bs "b" } 60 (by decide)

/-- C105: a cookie without an age, and one whose age text contains anything but digits and a sign, reads as age zero. -/
theorem C105_no_age (sc : SetCookie)
    (h : sc.maxAge = [] ∨ ∃ c ∈ sc.maxAge, ¬ IsDigit c ∧ c ≠ ch '-' ∧ c ≠ ch '+') : sc.getMaxAge = 0 := by
  have : atoi sc.maxAge = none := by
    rcases h with h | ⟨c, hc, h1, h2, h3⟩
    · rw [h]; decide +kernel
    · generalize sc.maxAge = t at hc
      cases t with
      | nil => cases hc
      | cons x t =>
        have bad : ∀ l : Bytes, c ∈ l → ¬ AllDigits l := fun l hl ha => h1 (ha c hl)
        unfold atoi
        dsimp only
        by_cases e1 : x = ch '-'
        · rw [if_pos e1, if_pos (.inr (bad t (by
            rcases List.mem_cons.mp hc with rfl | hc
            · exact absurd e1 h2
            · exact hc)))]; rfl
        · rw [if_neg e1]
          by_cases e2 : x = ch '+'
          · rw [if_pos e2, if_pos (.inr (bad t (by
              rcases List.mem_cons.mp hc with rfl | hc
              · exact absurd e2 h3
              · exact hc)))]; rfl
          · rw [if_neg e2, if_pos (.inr (bad _ hc))]; rfl
  unfold SetCookie.getMaxAge
  rw [this]; rfl

example := C105_no_age { name := bs "a", value := bs "b", maxAge := bs "6x" } (by decide +kernel)

/-- C105: an age text of digits with or without a sign is read as the number it writes when a 64-bit number holds
it, and as zero when not. -/
theorem C105_age_text (sc : SetCookie) (ds : Bytes) (hne : ds ≠ []) (hd : AllDigits ds) :
    ({ sc with maxAge := ds }.getMaxAge = if decVal ds < 9223372036854775808 then (decVal ds : Int) else 0) ∧
    ({ sc with maxAge := ch '+' :: ds }.getMaxAge = if decVal ds < 9223372036854775808 then (decVal ds : Int) else 0) ∧
    ({ sc with maxAge := ch '-' :: ds }.getMaxAge = if decVal ds ≤ 9223372036854775808 then -(decVal ds : Int) else 0) := by
  have hnum : ¬ (ds = [] ∨ ¬ AllDigits ds) := by rintro (h | h); exact hne h; exact h hd
  unfold SetCookie.getMaxAge atoi
  refine ⟨?_, ?_, ?_⟩
  · obtain ⟨c, t, rfl⟩ := List.exists_cons_of_ne_nil hne
    have hc := hd c (by simp)
    have e1 : c ≠ ch '-' := by rintro rfl; exact absurd hc.1 (by decide)
    have e2 : c ≠ ch '+' := by rintro rfl; exact absurd hc.1 (by decide)
    dsimp only
    rw [if_neg e1, if_neg e2, if_neg hnum]
    simp only [Option.map_some, Option.bind_some]
    by_cases h : decVal (c :: t) < 9223372036854775808
    · rw [if_pos h, if_pos ⟨by omega, by omega⟩]; rfl
    · rw [if_neg h, if_neg (by omega)]; rfl
  · dsimp only
    rw [if_neg (by decide), if_pos rfl, if_neg hnum]
    simp only [Option.map_some, Option.bind_some]
    by_cases h : decVal ds < 9223372036854775808
    · rw [if_pos h, if_pos ⟨by omega, by omega⟩]; rfl
    · rw [if_neg h, if_neg (by omega)]; rfl
  · dsimp only
    rw [if_pos rfl, if_neg hnum]
    simp only [Option.map_some, Option.bind_some]
    by_cases h : decVal ds ≤ 9223372036854775808
    · rw [if_pos h, if_pos ⟨by omega, by omega⟩]; rfl
    · rw [if_neg h, if_neg (by omega)]; rfl

example := C105_age_text { name := bs "a", value := bs "b" } (bs "0060") (by decide) (by decide)

/-- C105: setting the age or the mode touches no other attribute. -/
theorem C105_other_attributes (sc : SetCookie) (n m : Int) :
    { sc.setMaxAge n with maxAge := sc.maxAge } = sc ∧ { sc.setSameSite m with sameSite := sc.sameSite } = sc := by
  constructor
  · unfold SetCookie.setMaxAge; split <;> rfl
  · unfold SetCookie.setSameSite; repeat' split
    all_goals rfl

theorem getSameSite_of (toLower : Bytes → Bytes) (sc : SetCookie) (t : Bytes) (h : toLower sc.sameSite = t) :
    sc.getSameSite toLower =
      if t = bs "lax" then 2 else if t = bs "strict" then 3 else if t = bs "none" then 4 else 1 := by
  subst h; rfl

/-- C105: each of the four modes is read back; any other number leaves the cookie as it was. -/
theorem C105_same_site (toLower : Bytes → Bytes) (hl : LowersAscii toLower) (sc : SetCookie) (m : Int) :
    (1 ≤ m ∧ m ≤ 4 → (sc.setSameSite m).getSameSite toLower = m) ∧
    (¬ (1 ≤ m ∧ m ≤ 4) → sc.setSameSite m = sc) := by
  constructor
  · rintro ⟨h1, h2⟩
    have e : m = 1 ∨ m = 2 ∨ m = 3 ∨ m = 4 := by omega
    rcases e with rfl | rfl | rfl | rfl
    · rw [getSameSite_of toLower (sc.setSameSite 1) (bs " ")]
      · decide +kernel
      · rw [show (sc.setSameSite 1).sameSite = bs " " from rfl, hl _ (by decide +kernel)]; decide +kernel
    · rw [getSameSite_of toLower (sc.setSameSite 2) (bs "lax")]
      · decide +kernel
      · rw [show (sc.setSameSite 2).sameSite = bs "Lax" from rfl, hl _ (by decide +kernel)]; decide +kernel
    · rw [getSameSite_of toLower (sc.setSameSite 3) (bs "strict")]
      · decide +kernel
      · rw [show (sc.setSameSite 3).sameSite = bs "Strict" from rfl, hl _ (by decide +kernel)]; decide +kernel
    · rw [getSameSite_of toLower (sc.setSameSite 4) (bs "none")]
      · decide +kernel
      · rw [show (sc.setSameSite 4).sameSite = bs "none" from rfl, hl _ (by decide +kernel)]; decide +kernel
  · intro h
    unfold SetCookie.setSameSite
    rw [if_neg (by omega), if_neg (by omega), if_neg (by omega), if_neg (by omega)]

example := C105_same_site (fun s => s.map lowerByte) (fun _ _ => rfl) { name := bs "a", value := bs "b" } 2

/-- C105: the age and the mode survive the text form: a peer that reads the line written for the cookie
gets the age and the mode that were set. -/
theorem C105_over_the_wire (toLower : Bytes → Bytes) (hl : LowersAscii toLower) (sc : SetCookie)
    (n m : Int) (hn : n < 2 ^ 63) (hm : 1 ≤ m ∧ m ≤ 4) (h : SetCookie.Plain sc)
    (hf : sc.httpOnly = false ∧ sc.secure = false) :
    ∃ r, SetCookie.unmarshal toLower {} ((sc.setMaxAge n).setSameSite m).marshal = some r ∧
      r.getMaxAge = max n 0 ∧ r.getSameSite toLower = m ∧ r.name = sc.name ∧ r.value = sc.value := by
  obtain ⟨a, ha, hd⟩ : ∃ a, sc.setMaxAge n = { sc with maxAge := a } ∧ ch ';' ∉ a := by
    unfold SetCookie.setMaxAge
    split
    · exact ⟨_, rfl, fun hc => absurd (decDigits_allDigits _ _ hc).2 (by decide)⟩
    · exact ⟨_, rfl, by decide +kernel⟩
  obtain ⟨b, hb, he⟩ : ∃ b, (sc.setMaxAge n).setSameSite m = { sc.setMaxAge n with sameSite := b } ∧ ch ';' ∉ b := by
    have e : m = 1 ∨ m = 2 ∨ m = 3 ∨ m = 4 := by omega
    rcases e with rfl | rfl | rfl | rfl <;> exact ⟨_, rfl, by decide +kernel⟩
  have plain : SetCookie.Plain ((sc.setMaxAge n).setSameSite m) := by
    rw [hb, ha]
    exact ⟨h.name, h.value, h.path, h.domain, h.expires, hd, he⟩
  refine ⟨_, C54_set_cookie_round_trip_partial toLower hl _ plain ?_, ?_, ?_, ?_, ?_⟩
  · right; rw [hb, ha]; exact hf
  · have : ((sc.setMaxAge n).setSameSite m).getMaxAge = (sc.setMaxAge n).getMaxAge := by rw [hb]; rfl
    rw [this]; exact C105_max_age sc n hn
  · exact (C105_same_site toLower hl _ m).1 hm
  · rw [hb, ha]
  · rw [hb, ha]

example := C105_over_the_wire (fun s => s.map lowerByte) (fun _ _ => rfl) { name := bs "a", value := bs "b" } 60 2 (by decide) (by decide)
  ⟨by decide, by decide, by decide, by decide, by decide, by decide, by decide⟩ ⟨rfl, rfl⟩

/-- C215 violated: the comment of the type says that an age of zero means no Max-Age attribute; setting it writes
`Max-Age=0`, which tells the browser to delete the cookie, and a negative age reads back as zero. -/
theorem C215_zero_age_violated (sc : SetCookie) (n : Int) (h : n ≤ 0) :
    (sc.setMaxAge n).maxAge = bs "0" ∧ (sc.setMaxAge n).getMaxAge = 0 := by
  have : sc.setMaxAge n = { sc with maxAge := bs "0" } := by
    unfold SetCookie.setMaxAge; rw [if_neg (by omega)]
  rw [this]
  exact ⟨rfl, by show (atoi (bs "0")).getD 0 = 0; decide +kernel⟩

example := C215_zero_age_violated { name := bs "a", value := bs "b" } (-1) (by decide)

/-- C105: cookies are added as one line each, in order, after the lines already there. -/
theorem C105_one_line_per_cookie (h : Header) (scs : List SetCookie) :
    (h.addSetCookie scs).lines = h.lines ++ scs.map fun sc => (bs "Set-Cookie", sc.marshal) := by
  induction scs generalizing h with
  | nil => simp [Header.addSetCookie]
  | cons sc r ih => rw [Header.addSetCookie, ih]; simp [Header.add]

example : SetCookie.Plain { name := bs "a", value := bs "b" } ∧
    ((({ name := bs "a", value := bs "b" } : SetCookie).setMaxAge 60).setSameSite 2).marshal =
      bs "a=b; Max-Age=60; SameSite=Lax" := by
  refine ⟨⟨by decide +kernel, by decide +kernel, by decide +kernel, by decide +kernel, by decide +kernel,
    by decide +kernel, by decide +kernel⟩, ?_⟩
  decide +kernel

/-! ## C106 -/

theorem table_ok : ∀ r ∈ statusTable, r.number < 1000 ∧ r.code = decDigits r.number ∧ r.phrase ≠ [] := by
  have : statusTable.all (fun r => decide (r.number < 1000 ∧ r.code = decDigits r.number ∧ r.phrase ≠ [])) = true := by
    decide +kernel
  intro r hr
  simpa using List.all_eq_true.mp this r hr

theorem table_nodup : (statusTable.map StatusRow.number).Nodup := by decide +kernel

theorem find_row (l : List StatusRow) (hn : (l.map StatusRow.number).Nodup) (r : StatusRow) (h : r ∈ l) :
    l.find? (fun x => x.number = r.number) = some r := by
  induction l with
  | nil => cases h
  | cons a t ih =>
    simp only [List.map_cons, List.nodup_cons] at hn
    rcases List.mem_cons.mp h with rfl | h
    · simp
    · rw [List.find?_cons_of_neg]
      · exact ih hn.2 h
      · intro e
        apply hn.1
        have : a.number = r.number := by simpa using e
        rw [this]; exact List.mem_map_of_mem h

theorem parseUint_decDigits (bits n : Nat) (h : n < 2 ^ bits) : parseUint bits (decDigits n) = some n := by
  obtain ⟨hne, had, _⟩ := decDigits_canonical n
  unfold parseUint
  rw [if_neg (by rintro (h | h); exact hne h; exact h had), decVal_decDigits, if_pos h]

/-- C106: the code text of every status constant is the decimal text of its number, and asking for the text of that number gives its phrase. -/
theorem C106_status_text (r : StatusRow) (h : r ∈ statusTable) :
    r.code = decDigits r.number ∧ getStatusText (BitVec.ofNat 16 r.number) = r.phrase := by
  obtain ⟨h1, h2, _⟩ := table_ok r h
  refine ⟨h2, ?_⟩
  unfold getStatusText
  have : (BitVec.ofNat 16 r.number).toNat = r.number := by simp; omega
  rw [this, find_row statusTable table_nodup r h]

example := C106_status_text ⟨200, bs "200", bs "OK"⟩ (by simp [statusTable])

/-- C106: a number that is no status constant has the empty text. -/
theorem C106_unknown_status_text (code : U16) (h : ∀ r ∈ statusTable, r.number ≠ code.toNat) :
    getStatusText code = [] := by
  unfold getStatusText
  rw [List.find?_eq_none.mpr]
  intro r hr; simpa using h r hr

example := C106_unknown_status_text 299#16 (by decide +kernel)

/-- C106: the status code is read exactly when its text is a decimal number below 65536 (leading zeros
allowed), and is then that number; anything else is an error. -/
theorem C106_get_status_code (r : Response) (code : U16) :
    r.getStatusCode = some code ↔
      r.statusCode ≠ [] ∧ AllDigits r.statusCode ∧ decVal r.statusCode = code.toNat := by
  unfold Response.getStatusCode parseUint
  constructor
  · intro h
    obtain ⟨n, hn, e⟩ := Option.map_eq_some_iff.mp h
    split at hn
    · cases hn
    · rename_i hc
      split at hn
      · rename_i hlt
        cases hn
        refine ⟨fun h => hc (.inl h), Decidable.byContradiction fun h => hc (.inr h), ?_⟩
        rw [← e]; simp only [BitVec.toNat_ofNat]; omega
      · cases hn
  · rintro ⟨h1, h2, h3⟩
    rw [if_neg (by rintro (h | h); exact h1 h; exact h h2), if_pos (by rw [h3]; exact code.isLt), h3]
    simp

/-- C106: the status set with one of the constants is the status read, and its text is the phrase set. -/
theorem C106_status_round_trip (r : Response) (row : StatusRow) (h : row ∈ statusTable) :
    (r.setStatus row.code row.phrase).getStatusCode = some (BitVec.ofNat 16 row.number) ∧
    getStatusText (BitVec.ofNat 16 row.number) = (r.setStatus row.code row.phrase).reasonPhrase := by
  obtain ⟨h1, h2, _⟩ := table_ok row h
  refine ⟨?_, (C106_status_text row h).2⟩
  unfold Response.getStatusCode Response.setStatus
  simp only
  rw [h2, parseUint_decDigits 16 _ (by omega)]; rfl

example := C106_status_round_trip Response.init ⟨200, bs "200", bs "OK"⟩ (by simp [statusTable])

/-- C106: the status chosen for an error: none for no error, 431 for headers too large, 501 for an
unsupported transfer encoding, 400 for any other error; version and header lines stay as they were. -/
theorem C106_status_by_error {E : Type} (equal : E → E → Bool) (tooLarge unsupported : E)
    (hne : ∀ e, ¬ (equal e tooLarge = true ∧ equal e unsupported = true)) (r : Response) :
    r.setStatusByError equal tooLarge unsupported none = r ∧
    ∀ e, (equal e tooLarge = true → (r.setStatusByError equal tooLarge unsupported (some e)).getStatusCode = some 431#16) ∧
      (equal e unsupported = true → (r.setStatusByError equal tooLarge unsupported (some e)).getStatusCode = some 501#16) ∧
      (equal e tooLarge = false → equal e unsupported = false →
        (r.setStatusByError equal tooLarge unsupported (some e)).getStatusCode = some 400#16) ∧
      (r.setStatusByError equal tooLarge unsupported (some e)).version = r.version ∧
      (r.setStatusByError equal tooLarge unsupported (some e)).header = r.header := by
  refine ⟨rfl, fun e => ?_⟩
  have t : ∀ c p, (r.setStatus c p).getStatusCode = (parseUint 16 c).map (BitVec.ofNat 16) := fun _ _ => rfl
  have t1 : (parseUint 16 (bs "431")).map (BitVec.ofNat 16) = some 431#16 := by decide +kernel
  have t2 : (parseUint 16 (bs "501")).map (BitVec.ofNat 16) = some 501#16 := by decide +kernel
  have t3 : (parseUint 16 (bs "400")).map (BitVec.ofNat 16) = some 400#16 := by decide +kernel
  have := hne e
  unfold Response.setStatusByError
  cases h1 : equal e tooLarge <;> cases h2 : equal e unsupported <;>
    simp_all [Response.setStatus]

example := C106_status_by_error (E := Nat) (fun a b => a == b) 1 2 (fun e => by simp; omega) Response.init

/-- C106: a redirect sets the status and, when the response has no Location line yet, the target. -/
theorem C106_redirect (r : Response) (code phrase target : Bytes)
    (habs : ∀ p ∈ r.header.lines, p.1 ≠ bs "Location") :
    ∃ r', r.redirect code phrase target = some r' ∧ r'.statusCode = code ∧ r'.reasonPhrase = phrase ∧
      r'.header.get (bs "Location") = target ∧ r'.header.lines = r.header.lines ++ [(bs "Location", target)] := by
  have hs := C14_set_exact_partial r.header (bs "Location") target
  rw [if_neg (by rintro ⟨p, hp, e⟩; exact habs p hp e)] at hs
  refine ⟨{ r.setStatus code phrase with header := r.header.add (bs "Location") target }, ?_, rfl, rfl, ?_, rfl⟩
  · unfold Response.redirect Response.hset
    rw [show (r.setStatus code phrase).header = r.header from rfl, hs]; rfl
  · exact get_add_absent _ _ _ habs

example := C106_redirect Response.init (bs "301") (bs "Moved Permanently") (bs "/x") (by decide +kernel)

/-- C216 violated: redirecting a response that already names a Location keeps the old target. -/
theorem C216_second_redirect_violated (r r' : Response) (code phrase t1 t2 : Bytes) (hne : t1 ≠ t2)
    (habs : ∀ p ∈ r.header.lines, p.1 ≠ bs "Location") (h : r.redirect code phrase t1 = some r') :
    ∃ r'', r'.redirect code phrase t2 = some r'' ∧ r''.header.get (bs "Location") = t1 ∧
      r''.header.get (bs "Location") ≠ t2 := by
  obtain ⟨x, hx, hc, hp, hg, hl⟩ := C106_redirect r code phrase t1 habs
  rw [h] at hx
  cases hx
  have hs := C14_set_exact_partial r'.header (bs "Location") t2
  rw [if_pos ⟨(bs "Location", t1), by rw [hl]; simp, rfl⟩] at hs
  refine ⟨{ r'.setStatus code phrase with header := r'.header }, ?_, hg, by rw [hg]; exact hne⟩
  unfold Response.redirect Response.hset
  rw [show (r'.setStatus code phrase).header = r'.header from rfl, hs]; rfl

example := C216_second_redirect_violated ⟨[], [], [], ⟨[]⟩⟩ _ (bs "301") (bs "Moved Permanently") (bs "/x") (bs "/y") (by decide) (by simp)
  (Option.some_get (show ((⟨[], [], [], ⟨[]⟩⟩ : Response).redirect (bs "301") (bs "Moved Permanently") (bs "/x")).isSome by decide +kernel)).symm

theorem idText_length (id : U64) : (idText id).length = 11 := by simp [idText, Base64.digits_length]

/-- C216: the identifier text set on a response is the base64 text of the identifier's eight bytes, least
significant first, with `-` for `+` and `_` for `/`. -/
theorem C216_error_text (id : U64) :
    idText id = (Base64.encode ((List.range 8).map fun i => BitVec.ofNat 8 (id.toNat / 256 ^ i))).map fun c =>
      if c = ch '+' then ch '-' else if c = ch '/' then ch '_' else c := by
  have hc : ∀ d : Fin 64, urlCharOf d =
      (if Base64.charOf d = ch '+' then ch '-' else if Base64.charOf d = ch '/' then ch '_' else Base64.charOf d) := by
    decide +kernel
  unfold idText Base64.encode
  simp only [List.map_map, List.length_map, List.length_range]
  rw [show (BitVec.toNat ∘ fun i => BitVec.ofNat 8 (id.toNat / 256 ^ i)) = fun i => id.toNat / 256 ^ i % 256 by
    funext i; simp]
  apply List.map_congr_left
  intro d hd
  exact hc ⟨d, Base64.digits_lt 64 (by omega) _ _ d hd⟩

theorem urlChar_digit : ∀ d < 64, IsDigit (urlCharOf d) → 52 ≤ d ∧ d < 62 := by decide +kernel

/-- When the text of an identifier happens to consist of digits the identifier is at least 2^62. -/
theorem digits_id_big (id : U64) (h : AllDigits (idText id)) : 2 ^ 62 ≤ id.toNat := by
  have hlast : ∀ V : Nat, (∀ c ∈ (Base64.digits 64 11 V).map urlCharOf, IsDigit c) → 52 ≤ V / 64 % 64 ∧ V / 64 % 64 < 62 := by
    intro V hV
    have hm : V / 64 % 64 ∈ Base64.digits 64 11 V := by simp [Base64.digits]
    exact urlChar_digit _ (Nat.mod_lt _ (by omega)) (hV _ (List.mem_map_of_mem hm))
  have hw : ∃ w, Base64.value 256 ((List.range 8).map fun i => id.toNat / 256 ^ i % 256) = w * 256 + id.toNat / 256 ^ 7 % 256 := by
    refine ⟨Base64.value 256 ((List.range 7).map fun i => id.toNat / 256 ^ i % 256), ?_⟩
    rw [List.range_succ, List.map_append, List.map_singleton, Base64.value_append]
  obtain ⟨w, hw⟩ := hw
  have := hlast _ h
  rw [hw] at this
  have := id.isLt
  omega

/-- C216 violated: an error set on a response is never read back: reading gives no error, or looks up a
different identifier, for every error whatever. -/
theorem C216_error_never_read_back_violated (r : Response) (id : U64)
    (habs : ∀ p ∈ r.header.lines, p.1 ≠ bs "Error-ID") :
    ∃ r', r.setErrorID id = some r' ∧ r'.errorIDRead ≠ some id ∧
      (¬ AllDigits (idText id) → r'.errorIDRead = none) := by
  have hs := C14_set_exact_partial r.header (bs "Error-ID") (idText id)
  rw [if_neg (by rintro ⟨p, hp, e⟩; exact habs p hp e)] at hs
  refine ⟨{ r with header := r.header.add (bs "Error-ID") (idText id) }, ?_, ?_, ?_⟩
  · unfold Response.setErrorID Response.hset
    rw [hs]; rfl
  · unfold Response.errorIDRead
    simp only
    rw [get_add_absent _ _ _ habs]
    intro hc
    split at hc
    · cases hc
    · rename_i h0
      simp only [Option.some.injEq] at hc
      have hd : AllDigits (idText id) := by
        apply Decidable.byContradiction
        intro hn
        apply h0
        exact parseUint64_short _ hn (by rw [idText_length]; omega)
      have hb := digits_id_big id hd
      have hv := decVal_lt _ hd
      rw [idText_length] at hv
      have hne : idText id ≠ [] := by intro e; have := idText_length id; rw [e] at this; cases this
      rw [parseUint64_digits _ hd hne, if_pos (by omega)] at hc
      have := congrArg BitVec.toNat hc
      simp only [BitVec.toNat_ofNat] at this
      omega
  · intro hn
    unfold Response.errorIDRead
    simp only
    rw [get_add_absent _ _ _ habs]
    have : parseUint64 (idText id) = 0 := parseUint64_short _ hn (by rw [idText_length]; omega)
    rw [if_pos this]

example := C216_error_never_read_back_violated Response.init 77#64 (by decide +kernel)

/-- C216, what holds: a response whose Error-ID line is the decimal text of a registered identifier reads
as that error, one without the line as no error.
Missing: errors set by the framework itself, and the second redirection (refuted:
`C216_second_redirect_violated`, `C216_error_never_read_back_violated`). -/
theorem C216_decimal_error_read_partial {α : Type} (reg : Registry.Errors.State α) (r : Response) :
    (r.header.get (bs "Error-ID") = [] → (r.getError reg) = .nil) ∧
    ∀ (id : U64) (x : α), id ≠ 0#64 → reg.byID id = some x → r.header.get (bs "Error-ID") = decDigits id.toNat →
      r.getError reg = .found x := by
  constructor
  · intro h
    unfold Response.getError Response.errorIDRead
    simp only [h]
    rfl
  · intro id x h0 hx h
    have e : parseUint64 (decDigits id.toNat) = id := parseUint64_decDigits id
    unfold Response.getError Response.errorIDRead
    simp only [h, e]
    rw [if_neg (show ¬ id = 0 from h0)]
    simp only [Registry.Errors.getByID]
    rw [if_neg h0, hx]

example : idText 1#64 = bs "AQAAAAAAAAA" ∧ idText 0xffffffffffffffff#64 = bs "__________8" := by decide +kernel
example : AllDigits (idText 0x4dd3344dd3344dd3#64) ∧ ¬ AllDigits (idText 1#64) := by decide +kernel
example : statusTable.length = 60 := by decide +kernel

/-! ## C107 -/

/-- The value of a line after `Set`: the old value where there was one. -/
def keptOr (h : Header) (key : Bytes) (v : Option Bytes) : List KV :=
  match v with
  | none => []
  | some v => if ∃ p ∈ h.lines, p.1 = key then [] else [(key, v)]

theorem setIfSome_eq (h : Header) (key : Bytes) (v : Option Bytes) :
    setIfSome h key v = some ⟨h.lines ++ keptOr h key v⟩ := by
  cases v with
  | none => simp [setIfSome, keptOr]
  | some v =>
    rw [setIfSome, C14_set_exact_partial, keptOr]
    split <;> simp [Header.add]

/-- C107: what is sent for every response and body: the version is the request's, status and phrase are
untouched, the handler's lines stay first and in order, then come a Content-Type and a Content-Encoding line when
the body names one and the handler set none, and last a Content-Length line with the decimal
length of a non-empty body or `Transfer-Encoding: chunked`. -/
theorem C107_sent_response (version : Bytes) (r : Response) (body : Option BodyCodec) :
    ∃ r', handleOutcome version r body = some r' ∧ r'.version = version ∧ r'.statusCode = r.statusCode ∧
      r'.reasonPhrase = r.reasonPhrase ∧
      r'.header.lines = r.header.lines ++ keptOr r.header (bs "Content-Type") (body.bind BodyCodec.mediaType) ++
        keptOr r.header (bs "Content-Encoding") (body.bind BodyCodec.contentEncoding) ++
        [match body with
          | some b => if b.len > 0 then (bs "Content-Length", decDigits b.len) else (bs "Transfer-Encoding", bs "chunked")
          | none => (bs "Transfer-Encoding", bs "chunked")] := by
  have ne1 : bs "Content-Type" ≠ bs "Content-Encoding" := by decide +kernel
  have k : ∀ (h : Header) (x : Option Bytes) (y : Option Bytes),
      keptOr ⟨h.lines ++ keptOr h (bs "Content-Type") x⟩ (bs "Content-Encoding") y = keptOr h (bs "Content-Encoding") y := by
    intro h x y
    cases y with
    | none => rfl
    | some y =>
      have : (∃ p ∈ h.lines ++ keptOr h (bs "Content-Type") x, p.1 = bs "Content-Encoding") ↔
          ∃ p ∈ h.lines, p.1 = bs "Content-Encoding" := by
        constructor
        · rintro ⟨p, hp, e⟩
          rcases List.mem_append.mp hp with hp | hp
          · exact ⟨p, hp, e⟩
          · exfalso
            cases x with
            | none => simp [keptOr] at hp
            | some x =>
              simp only [keptOr] at hp
              split at hp
              · cases hp
              · rw [List.mem_singleton.mp hp] at e
                exact ne1 e
        · rintro ⟨p, hp, e⟩; exact ⟨p, List.mem_append_left _ hp, e⟩
      show (if _ then _ else _) = (if _ then _ else _)
      by_cases hq : ∃ p ∈ h.lines, p.1 = bs "Content-Encoding"
      · rw [if_pos hq, if_pos (this.mpr hq)]
      · rw [if_neg hq, if_neg (fun h => hq (this.mp h))]
  unfold handleOutcome
  simp only [bodyNotNil, if_true, setIfSome_eq, Option.bind_some, k]
  cases body with
  | none => exact ⟨_, rfl, rfl, rfl, rfl, rfl⟩
  | some b =>
    by_cases hb : b.len > 0
    · rw [if_pos (show bodyLen (some b) > 0 from hb)]
      simp only [hb, if_true]
      exact ⟨_, rfl, rfl, rfl, rfl, rfl⟩
    · rw [if_neg (show ¬ bodyLen (some b) > 0 from hb)]
      simp only [hb, if_false]
      exact ⟨_, rfl, rfl, rfl, rfl, rfl⟩

/-- C107: a body of known length is announced with that length, when the handler set none itself. -/
theorem C107_length_announced (version : Bytes) (r r' : Response) (b : BodyCodec) (hb : b.len > 0)
    (habs : ∀ p ∈ r.header.lines, p.1 ≠ bs "Content-Length") (h : handleOutcome version r (some b) = some r') :
    r'.header.get (bs "Content-Length") = decDigits b.len := by
  have ne1 : bs "Content-Type" ≠ bs "Content-Length" := by decide +kernel
  have ne2 : bs "Content-Encoding" ≠ bs "Content-Length" := by decide +kernel
  obtain ⟨x, hx, _, _, _, hl⟩ := C107_sent_response version r (some b)
  rw [h] at hx; cases hx
  simp only [if_pos hb] at hl
  have : r'.header = (Header.mk (r.header.lines ++ keptOr r.header (bs "Content-Type") b.mediaType ++
      keptOr r.header (bs "Content-Encoding") b.contentEncoding)).add (bs "Content-Length") (decDigits b.len) := by
    cases hh : r'.header; rw [hh] at hl; simp only [Header.add]; exact congrArg Header.mk hl
  rw [this]
  apply get_add_absent
  intro p hp
  simp only [List.mem_append] at hp
  rcases hp with (hp | hp) | hp
  · exact habs p hp
  · intro e
    unfold keptOr at hp
    split at hp
    · cases hp
    · split at hp
      · cases hp
      · rw [List.mem_singleton.mp hp] at e; exact ne1 e
  · intro e
    unfold keptOr at hp
    split at hp
    · cases hp
    · split at hp
      · cases hp
      · rw [List.mem_singleton.mp hp] at e; exact ne2 e

example := C107_length_announced (bs "HTTP/1.1") ⟨[], [], [], ⟨[]⟩⟩ _ ⟨some (bs "text/html"), none, 12⟩ (by decide) (by simp)
  (Option.some_get (show (handleOutcome (bs "HTTP/1.1") ⟨[], [], [], ⟨[]⟩⟩ (some ⟨some (bs "text/html"), none, 12⟩)).isSome by decide +kernel)).symm

/-- C217 violated: a response without a body is announced as chunked, and no Content-Length line is
written for it, because `Body()` never returns nil. -/
theorem C217_empty_response_chunked_violated (version : Bytes) (r : Response)
    (habs : ∀ p ∈ r.header.lines, p.1 ≠ bs "Content-Length" ∧ p.1 ≠ bs "Transfer-Encoding") :
    ∃ r', handleOutcome version r none = some r' ∧ r'.header.get (bs "Transfer-Encoding") = bs "chunked" ∧
      r'.header.get (bs "Content-Length") = [] := by
  obtain ⟨r', h, _, _, _, hl⟩ := C107_sent_response version r none
  refine ⟨r', h, ?_⟩
  simp only [Option.bind_none, keptOr, List.append_nil] at hl
  have e : r'.header = r.header.add (bs "Transfer-Encoding") (bs "chunked") := by
    cases hh : r'.header; rw [hh] at hl; simp only [Header.add]; rw [← hl]
  rw [e]
  refine ⟨get_add_absent _ _ _ fun p hp => (habs p hp).2, get_absent _ _ ?_⟩
  intro p hp
  rcases List.mem_append.mp hp with hp | hp
  · exact (habs p hp).1
  · rw [List.mem_singleton.mp hp]; decide +kernel

example := C217_empty_response_chunked_violated (bs "HTTP/1.1") Response.init (by decide +kernel)

/-- C217 violated: a length that the handler announced itself is doubled: two Content-Length lines are sent. -/
theorem C217_double_length_violated (version : Bytes) (r r' : Response) (b : BodyCodec) (hb : b.len > 0) (v : Bytes)
    (hp : (bs "Content-Length", v) ∈ r.header.lines) (h : handleOutcome version r (some b) = some r') :
    2 ≤ (r'.header.lines.filter fun p => p.1 = bs "Content-Length").length := by
  obtain ⟨x, hx, _, _, _, hl⟩ := C107_sent_response version r (some b)
  rw [h] at hx; cases hx
  simp only [if_pos hb] at hl
  rw [hl, List.filter_append, List.filter_append, List.filter_append]
  have : 0 < (r.header.lines.filter fun p => p.1 = bs "Content-Length").length :=
    List.length_pos_iff.mpr (List.ne_nil_of_mem (List.mem_filter.mpr ⟨hp, by simp⟩))
  have h1 : (List.filter (fun p => decide (p.1 = bs "Content-Length"))
      [((bs "Content-Length", decDigits b.len) : KV)]).length = 1 := by simp
  simp only [List.length_append]
  rw [h1]
  omega

example : (handleOutcome (bs "HTTP/1.1") Response.init (some ⟨some (bs "text/html"), none, 12⟩)).map
    (fun r => r.header.lines.drop 16) = some [(bs "Content-Type", bs "text/html"), (bs "Content-Length", bs "12")] := by
  decide +kernel

/-! ## C108 -/

/-- C108: the authority of the request target wins; only where it has none is the Host line taken. Nothing else changes. -/
theorem C108_host_line_only_without_authority (u : Uri.URI) (h : Header) :
    (u.au.authority ≠ [] → checkHost u h = u) ∧
    (u.au.authority = [] → (checkHost u h).au.authority = h.get (bs "Host")) ∧
    { checkHost u h with au := { (checkHost u h).au with authority := u.au.authority } } = u := by
  unfold checkHost
  refine ⟨fun hne => by rw [if_neg hne], fun he => by rw [if_pos he], ?_⟩
  split <;> rfl

/-- C108: checking twice is the same as checking once. -/
theorem C108_idempotent (u : Uri.URI) (h : Header) : checkHost (checkHost u h) h = checkHost u h := by
  by_cases he : u.au.authority = []
  · have : checkHost u h = { u with au := { u.au with authority := h.get (bs "Host") } } := by
      unfold checkHost; rw [if_pos he]
    rw [this]; unfold checkHost
    split <;> rfl
  · have : checkHost u h = u := (C108_host_line_only_without_authority u h).1 he
    rw [this, this]

/-- C260 violated: the two spellings of a request are not treated the same: after the check the host of a
request that names it in the Host line is still empty, so the host filter accepts every such request,
for every foreign domain in the Host line. -/
theorem C260_host_line_not_parsed_violated (domain method : Bytes) (u : Uri.URI) (h : Header) (res : Response)
    (ha : u.au.authority = []) (hh : u.au.host = []) :
    (checkHost u h).au.host = [] ∧
    hostSupported domain (requestOf method (checkHost u h)) res = some (true, res) := by
  have : (checkHost u h).au.host = [] := by unfold checkHost; rw [if_pos ha]; exact hh
  refine ⟨this, ?_⟩
  unfold hostSupported requestOf
  simp only [this]

example : ∃ u : Uri.URI, u.au.authority = [] ∧ u.au.host = [] ∧
    (checkHost u ⟨[(bs "Host", bs "evil.example")]⟩).au.authority = bs "evil.example" :=
  ⟨{ path := bs "/x" }, rfl, rfl, by decide +kernel⟩

/-! ## C109 -/

variable {R E : Type}

/-- The first of the states that ends the wait. -/
def firstOf (ends : NetStatus → Bool) (l : List NetStatus) : Option NetStatus := l.find? ends

/-- C261, what holds: for every sequence of states the sender waits until the first of timeout and
received-completely, ignores all others, then closes the stream once; a received answer is returned with the
error found in it.
Missing: that a timeout gives an error, that only a sent request counts as sent, and closing
after an error (refuted: `C261_timeout_returns_nothing_violated`,
`C261_unsent_reported_as_sent_violated`, `C261_stream_leaked_violated` and others). -/
theorem C261_bidirectional_partial (decode : R × Option E) (l : List NetStatus) :
    sendBidirectional none none decode l =
      match firstOf (fun s => s = .timeout ∨ s = .receivedCompletely) l with
      | none => .waiting
      | some .receivedCompletely => .returned (some decode.1) decode.2 1
      | some _ => .returned none none 1 := by
  show awaitResponse decode l = _
  induction l with
  | nil => rfl
  | cons s r ih =>
    cases s
    · rfl
    · rfl
    · rw [awaitResponse]
      · rw [ih]; rfl
      · simp
      · simp
    · rw [awaitResponse]
      · rw [ih]; rfl
      · simp
      · simp

/-- C109: a request that cannot be sent returns the error at once, whatever the stream reports. -/
theorem C109_errors_reported (o e : E) (enc : Option E) (decode : R × Option E) (l : List NetStatus) :
    sendBidirectional (some o) enc decode l = .returned none (some o) 0 ∧
    sendBidirectional none (some e) decode l = .returned none (some e) 0 ∧
    sendUnidirectional (R := R) (some o) enc l = .returned none (some o) 0 ∧
    sendUnidirectional (R := R) none (some e) l = .returned none (some e) 0 := ⟨rfl, rfl, rfl, rfl⟩

/-- C261, what holds: the sender of a request without answer waits until the first of timeout and
sent-completely and then closes the stream once.
Missing: that a timeout gives an error, that only a sent request counts as sent, and closing
after an error (refuted: `C261_timeout_returns_nothing_violated`,
`C261_unsent_reported_as_sent_violated`, `C261_stream_leaked_violated` and others). -/
theorem C261_unidirectional_partial (l : List NetStatus) :
    sendUnidirectional (R := R) (E := E) none none l =
      match firstOf (fun s => s = .timeout ∨ s = .sentCompletely) l with
      | none => .waiting
      | some _ => .returned none none 1 := by
  show awaitSent l = _
  induction l with
  | nil => rfl
  | cons s r ih =>
    cases s
    · rfl
    · rw [awaitSent]
      · rw [ih]; rfl
      · simp
      · simp
    · rfl
    · rw [awaitSent]
      · rw [ih]; rfl
      · simp
      · simp

/-- C261 violated: "blocks the caller until it gets a response or an error": when the stream times out first the
caller gets neither: the response is nil and so is the error. -/
theorem C261_timeout_returns_nothing_violated (decode : R × Option E) (pre post : List NetStatus)
    (h : ∀ s ∈ pre, s ≠ .receivedCompletely) :
    sendBidirectional none none decode (pre ++ .timeout :: post) = .returned none none 1 := by
  show awaitResponse decode _ = _
  induction pre with
  | nil => rfl
  | cons s r ih =>
    have hs := h s (by simp)
    have hr := ih fun x hx => h x (List.mem_cons_of_mem _ hx)
    cases s
    · rfl
    · exact absurd rfl hs
    · rw [List.cons_append, awaitResponse]
      · exact hr
      · simp
      · simp
    · rw [List.cons_append, awaitResponse]
      · exact hr
      · simp
      · simp

example := C261_timeout_returns_nothing_violated (R := Nat) (E := Nat) (7, none) [.other, .sentCompletely] [.receivedCompletely] (by decide)

/-- C261 violated: a request without answer that was never sent before the timeout reports success, exactly as one that was sent. -/
theorem C261_unsent_reported_as_sent_violated (pre post post' : List NetStatus) (h : ∀ s ∈ pre, s = .other) :
    sendUnidirectional (R := R) (E := E) none none (pre ++ .timeout :: post) =
      sendUnidirectional none none (pre ++ .sentCompletely :: post') := by
  show awaitSent _ = awaitSent _
  induction pre with
  | nil => rfl
  | cons s r ih =>
    have hs := h s (by simp)
    subst hs
    exact ih fun x hx => h x (List.mem_cons_of_mem _ hx)

example := C261_unsent_reported_as_sent_violated (R := Nat) (E := Nat) [.other, .other] [] [.timeout] (by decide)

/-- C261 violated: a stream that was opened but could not take the request is never closed. -/
theorem C261_stream_leaked_violated (e : E) (decode : R × Option E) (l : List NetStatus) :
    sendBidirectional none (some e) decode l = .returned none (some e) 0 := rfl

/-- C261, what holds for sRPC: the answer is the socket and its error when the first deciding state is
received-completely; a timeout, and a channel closed before, return nothing.
Missing: that a timeout gives an error, that only a sent request counts as sent, and closing
after an error (refuted: `C261_timeout_returns_nothing_violated`,
`C261_unsent_reported_as_sent_violated`, `C261_stream_leaked_violated` and others). -/
theorem C261_srpc_partial (closed : Bool) (sk : R × Option E) (l : List NetStatus) :
    srpcSend none closed sk l =
      match firstOf (fun s => s = .timeout ∨ s = .receivedCompletely) l with
      | none => if closed then .returned none none 0 else .waiting
      | some .receivedCompletely => .returned (some sk.1) sk.2 0
      | some _ => .returned none none 0 := by
  show srpcAwait closed sk l = _
  induction l with
  | nil => rfl
  | cons s r ih =>
    cases s
    · rfl
    · rfl
    · rw [srpcAwait]
      · rw [ih]; rfl
      · simp
      · simp
    · rw [srpcAwait]
      · rw [ih]; rfl
      · simp
      · simp

/-- C109: an error of handing over an sRPC request is returned at once, with no response and the stream left alone,
whatever the stream does. -/
theorem C109_srpc_unsent (closed : Bool) (sk : R × Option E) (l : List NetStatus) (e : E) :
    srpcSend (some e) closed sk l = .returned none (some e) 0 := rfl

/-- C261, what holds for one-way sRPC: an error of handing over the request is returned at once; otherwise the
caller returns at the first timeout or sent-completely state, or when the channel is closed, and waits until
then.
Missing: that a timeout gives an error, that only a sent request counts as sent, and closing
after an error (refuted: `C261_timeout_returns_nothing_violated`,
`C261_unsent_reported_as_sent_violated`, `C261_stream_leaked_violated` and others). -/
theorem C261_srpc_one_way_partial (closed : Bool) (l : List NetStatus) :
    (∀ e : E, srpcSendUni (R := R) (some e) closed l = .returned none (some e) 0) ∧
    srpcSendUni (R := R) (E := E) none closed l =
      if closed ∨ ∃ s ∈ l, s = .timeout ∨ s = .sentCompletely then .returned none none 0 else .waiting := by
  refine ⟨fun _ => rfl, ?_⟩
  show srpcAwaitSent closed l = _
  induction l with
  | nil => cases closed <;> simp [srpcAwaitSent]
  | cons s r ih => cases s <;> simp [srpcAwaitSent, ih]

/-- C261 violated for one-way sRPC: a caller whose request timed out, or whose socket was closed before the
request was sent, is told the same as one whose request was sent. -/
theorem C261_srpc_one_way_unsent_violated (l : List NetStatus) (closed : Bool)
    (h : closed = true ∨ .timeout ∈ l) (_hs : NetStatus.sentCompletely ∉ l) :
    srpcSendUni (R := R) (E := E) none closed l = srpcSendUni none false [.sentCompletely] := by
  rw [(C261_srpc_one_way_partial (R := R) (E := E) closed l).2, if_pos]
  · rfl
  · rcases h with h | h
    · exact .inl h
    · exact .inr ⟨_, h, .inl rfl⟩

example : srpcSendUni (R := Nat) (E := Nat) none false [.other, .timeout] = srpcSendUni none false [.sentCompletely] := rfl

/-- C109: an sRPC service's error is set on the socket and then no response is; its response is set only
without an error; without a service neither is. -/
theorem C109_srpc_serve {C : Type} (e : E) (c : C) :
    srpcServe (E := E) (C := C) none = (none, none) ∧ srpcServe (C := C) (some (.error e)) = (some e, none) ∧
    srpcServe (E := E) (some (.ok c)) = (none, some c) := ⟨rfl, rfl, rfl⟩

example : firstOf (fun s => s = .timeout ∨ s = .receivedCompletely) [.other, .sentCompletely, .receivedCompletely, .timeout]
    = some .receivedCompletely := rfl

/-! ## C110 -/

/-- C110, what holds: a known path gives its file and no error, any other path the main page with whatever
error it was read with; the status is 200 and the answer may be cached for ever, when the handler set no other rule.
Missing: an application without main page (refuted: `C110_missing_page_panics_violated`). -/
theorem C110_serves_file_partial {F : Type} (f : F) (byPath : Option F) (main : Option F × Option E) (r : Response)
    (h : byPath = some f ∨ (byPath = none ∧ main.1 = some f)) :
    ∃ r', serveWWW byPath main r = some (r', f, if byPath.isSome then none else main.2) ∧
      r'.statusCode = bs "200" ∧ r'.reasonPhrase = bs "OK" ∧
      ((∀ p ∈ r.header.lines, p.1 ≠ bs "Cache-Control") →
        r'.header.get (bs "Cache-Control") = bs "max-age=31536000, immutable") := by
  have hs := C14_set_exact_partial r.header (bs "Cache-Control") (bs "max-age=31536000, immutable")
  have hh : (r.setStatus (bs "200") (bs "OK")).hset (bs "Cache-Control") (bs "max-age=31536000, immutable") =
      some { r.setStatus (bs "200") (bs "OK") with header :=
        (if (∃ p ∈ r.header.lines, p.1 = bs "Cache-Control") then r.header
        else r.header.add (bs "Cache-Control") (bs "max-age=31536000, immutable")) } := by
    unfold Response.hset
    rw [show (r.setStatus (bs "200") (bs "OK")).header = r.header from rfl, hs]; rfl
  refine ⟨{ r.setStatus (bs "200") (bs "OK") with header :=
        (if (∃ p ∈ r.header.lines, p.1 = bs "Cache-Control") then r.header
        else r.header.add (bs "Cache-Control") (bs "max-age=31536000, immutable")) }, ?_, rfl, rfl, ?_⟩
  · unfold serveWWW
    rw [hh]
    rcases h with rfl | ⟨rfl, h⟩
    · rfl
    · simp only [Option.bind_some, h]; rfl
  · intro habs
    simp only
    rw [if_neg (by rintro ⟨p, hp, e⟩; exact habs p hp e)]
    exact get_add_absent _ _ _ habs

example := C110_serves_file_partial (E := Nat) 7 none (some 7, some 3) Response.init (.inr ⟨rfl, rfl⟩)

/-- C110 violated: a path that no file has, in an application without an English main page, stops the
handler with a nil dereference, for every request and response. -/
theorem C110_missing_page_panics_violated {F : Type} (err : Option E) (r : Response) :
    serveWWW (F := F) none (none, err) r = none := by
  unfold serveWWW
  simp only
  cases (r.setStatus (bs "200") (bs "OK")).hset (bs "Cache-Control") (bs "max-age=31536000, immutable") <;> rfl

example : (serveWWW (E := Unit) (some 7) (none, none) Response.init).map (fun x => (x.1.statusCode, x.2.1)) =
    some (bs "200", 7) := by decide +kernel

end Memar.Http
