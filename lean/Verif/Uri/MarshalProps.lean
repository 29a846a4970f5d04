import Verif.Uri.ParseProps

/-! # Writing URIs (C98, C99) and authorities (C100) -/

namespace Memar.Uri

/-! ## C98: what is written is read back -/

/-- A URI object with these parts that has not been written or read yet. -/
def made (scheme authority path query fragment : Bytes) : URI :=
  URI.set fresh scheme authority path query fragment

/-- C98: writing an absolute URI and reading the text into an empty object gives the same scheme,
authority, path and query.  A missing path becomes `/`; the fragment is never written. -/
theorem C98_written_is_read_back (scheme authority path query fragment : Bytes)
    (hne : scheme ≠ []) (hs : Avoids scheme ":/?# ") (hstar : scheme.head? ≠ some (ch '*'))
    (ha : Avoids authority "/?# ") (hp : path = [] ∨ path.head? = some (ch '/'))
    (hp' : Avoids path "?# ") (hq : Avoids query "# ") :
    ∃ u', fresh.unmarshal (made scheme authority path query fragment).marshal.1 = some u' ∧
      u'.scheme = scheme ∧ u'.au.authority = authority ∧
      u'.path = (if path = [] then bs "/" else path) ∧ u'.query = query ∧ u'.fragment = [] := by
  have hslash : bs "/" = [ch '/'] := by decide
  let t : Tail := ⟨if path = [] then bs "/" else path, if query = [] then none else some query, none⟩
  have htext : (made scheme authority path query fragment).marshal.1 =
      absoluteForm scheme authority t ++ [] := by
    show URI.text (made scheme authority path query fragment) = _
    unfold URI.text absoluteForm Tail.text made URI.set
    simp only [hne, ne_eq, not_false_eq_true, if_true, t, hslash, List.append_nil]
    by_cases h : query = []
    · simp [h, withSign]
    · simp [h, withSign]
  have ht : t.WellFormed := by
    refine ⟨?_, ?_, ?_, ?_⟩
    · show (if path = [] then bs "/" else path).head? = _
      rcases hp with h | h
      · rw [if_pos h, hslash]; rfl
      · by_cases hn : path = []
        · rw [hn] at h; simp at h
        · rw [if_neg hn, h]
    · show Avoids (if path = [] then bs "/" else path) _
      split
      · decide
      · exact hp'
    · intro q h
      by_cases hn : query = []
      · simp [t, hn] at h
      · simp [t, hn] at h; rw [← h]; exact hq
    · intro f h; simp [t] at h
  have hf : t.PlainFragment := fun _ f h => by simp [t] at h
  have hmain := C96_absolute_form_partial
    { fresh with
      uri := absoluteForm scheme authority t ++ [], raw := some (absoluteForm scheme authority t ++ []) }
    scheme authority t [] hne hs hstar ha ht hf (Or.inl rfl)
  rw [htext, URI.unmarshal, hmain]
  refine ⟨_, rfl, rfl, rfl, rfl, ?_, rfl⟩
  show t.query.getD [] = query
  by_cases hn : query = []
  · simp [t, hn]
  · simp [t, hn]

example : (fresh.unmarshal (made (bs "https") (bs "a.b:8080") (bs "/x") (bs "k=v") (bs "f")).marshal.1).map
    (fun u => [u.scheme, u.au.authority, u.path, u.query, u.fragment]) =
    some [bs "https", bs "a.b:8080", bs "/x", bs "k=v", bs ""] := by decide +kernel

/-- C98: an origin-form URI (no scheme, no authority) without a colon is read back as well. -/
theorem C98_origin_is_read_back (path query fragment : Bytes)
    (hp : path.head? = some (ch '/')) (hp' : Avoids path ":?# ") (hq : Avoids query ":# ") :
    ∃ u', fresh.unmarshal (made [] [] path query fragment).marshal.1 = some u' ∧
      u'.scheme = [] ∧ u'.au.authority = [] ∧ u'.path = path ∧ u'.query = query ∧
      u'.fragment = [] := by
  have hsub : ∀ (x : Bytes) (c d : String), Avoids x c → (∀ b ∈ bs d, b ∈ bs c) → Avoids x d :=
    fun x c d h hcd b hb hbd => h b hb (hcd b hbd)
  have hne : path ≠ [] := by intro h; rw [h] at hp; simp at hp
  let t : Tail := ⟨path, if query = [] then none else some query, none⟩
  have htext : (made [] [] path query fragment).marshal.1 = t.text ++ [] := by
    show URI.text (made [] [] path query fragment) = _
    unfold URI.text Tail.text made URI.set
    by_cases h : query = []
    · simp [h, hne, withSign, t]
    · simp [h, hne, withSign, t]
  have ht : t.WellFormed := by
    refine ⟨hp, hsub _ _ _ hp' (by decide), ?_, ?_⟩
    · intro q h
      by_cases hn : query = []
      · simp [t, hn] at h
      · simp [t, hn] at h; rw [← h]; exact hsub _ _ _ hq (by decide)
    · intro f h; simp [t] at h
  have hc : t.NoColon := by
    intro c hc
    have : c ∈ path ∨ c = ch '?' ∨ c ∈ query := by
      by_cases hn : query = []
      · simp [Tail.text, t, hn, withSign] at hc; exact Or.inl hc
      · simp [Tail.text, t, hn, withSign] at hc; exact hc
    rcases this with h | h | h
    · exact hsub _ _ ":" hp' (by decide) c h
    · rw [h]; decide
    · exact hsub _ _ ":" hq (by decide) c h
  have hmain := C96_origin_form_partial { fresh with uri := t.text ++ [], raw := some (t.text ++ []) }
    t [] ht (fun _ f h => by simp [t] at h) hc (Or.inl rfl)
  rw [htext, URI.unmarshal, hmain]
  refine ⟨_, rfl, rfl, rfl, rfl, ?_, rfl⟩
  show t.query.getD [] = query
  by_cases hn : query = []
  · simp [t, hn]
  · simp [t, hn]

example : (fresh.unmarshal (made [] [] (bs "/x/y") (bs "k=v") []).marshal.1).map
    (fun u => [u.path, u.query]) = some [bs "/x/y", bs "k=v"] := by decide +kernel

/-- C98: a URI that was read is written as exactly the text it was read from, and what follows in the
data is not touched. -/
theorem C98_read_is_written_back (u u' : URI) (data rest packet : Bytes)
    (h : u.unmarshalFrom data = some (u', rest)) :
    u'.marshal.1 ++ rest = data ∧ u'.marshalTo packet = (packet ++ u'.marshal.1, u') := by
  obtain ⟨h1, h2⟩ := C97_nothing_lost u u' data rest h
  have hm : u'.marshal.1 = u'.uri := by unfold URI.marshal; rw [h2]
  refine ⟨by rw [hm]; exact h1, ?_⟩
  rw [hm]; unfold URI.marshalTo; rw [h2]

example := C98_read_is_written_back fresh _ (bs "/x/y?k=v HTTP/1.1") _ (bs "GET ")
  (Option.some_get (show (fresh.unmarshalFrom (bs "/x/y?k=v HTTP/1.1")).isSome by decide +kernel)).symm

/-- C98: appending a URI to a packet keeps the packet and adds exactly the text of the URI, and
writing it once more gives the same text. -/
theorem C98_append (u : URI) (packet packet' : Bytes) :
    (u.marshalTo packet).1 = packet ++ u.marshal.1 ∧
    ((u.marshalTo packet).2.marshalTo packet').1 = packet' ++ u.marshal.1 ∧
    (u.marshalTo packet).2.marshal.1 = u.marshal.1 ∧
    u.marshal.2.marshal.1 = u.marshal.1 := by
  cases h : u.raw with
  | none => simp [URI.marshalTo, URI.marshal, URI.marshalTo', h]
  | some r => simp [URI.marshalTo, URI.marshal, h]

/-! ## C99: changes show in what is written -/

/-- C99 is violated: once a URI was written or read, changing its parts does not change what is
written. -/
theorem C99_set_after_write_violated (u : URI) (s a p q f packet : Bytes) :
    (u.marshal.2.set s a p q f).marshal.1 = u.marshal.1 ∧
    ((u.marshalTo packet).2.set s a p q f).marshal.1 = u.marshal.1 := by
  cases h : u.raw with
  | none => simp [URI.marshalTo, URI.marshal, URI.marshalTo', URI.set, h]
  | some r => simp [URI.marshalTo, URI.marshal, URI.set, h]

/-- C99 is violated: a URI that was reinitialised and filled again is written as the empty text. -/
theorem C99_reinit_violated (u : URI) (s a p q f packet : Bytes) :
    (u.reinit.set s a p q f).marshal.1 = [] ∧
    ((u.reinit.set s a p q f).marshalTo packet).1 = packet := by
  simp [URI.reinit, URI.set, URI.marshal, URI.marshalTo]

/-- C99: before the first write, changes do show: the text is made from the last parts set.
Missing: changes after the first write, and that the length suffices (refuted:
`C99_set_after_write_violated`, `C99_reinit_violated`, `C99_len_violated`). -/
theorem C99_before_first_write_partial (u : URI) (s a p q f : Bytes) (h : u.raw = none) (hs : s ≠ [])
    (hp : p ≠ []) (hq : q ≠ []) :
    (u.set s a p q f).marshal.1 = s ++ bs "://" ++ a ++ p ++ bs "?" ++ q := by
  have hb : bs "?" = [ch '?'] := by decide
  simp [URI.set, URI.marshal, h, URI.text, hs, hp, hq, hb]

example : ((made (bs "a") (bs "b") (bs "/c") (bs "d") []).set (bs "x") (bs "y") (bs "/z") (bs "w") []).marshal.1
    = bs "x://y/z?w" := by decide +kernel

/-- C99: the announced length is enough for what is written, except for a URI with a scheme and a
query but neither path nor fragment, where it is one too small. -/
theorem C99_len (u : URI) :
    (u.scheme ≠ [] ∧ u.path = [] ∧ u.query ≠ [] ∧ u.fragment = [] ∧ u.raw = none ∧
      u.marshal.1.length = u.len + 1) ∨ u.marshal.1.length ≤ u.len := by
  cases h : u.raw with
  | some r =>
    right
    simp only [URI.marshal, h, URI.len]
    split <;> omega
  | none =>
    have hc : (bs "://").length = 3 := by decide
    simp only [URI.marshal, h, URI.len, URI.rawLen, URI.text]
    by_cases h1 : u.scheme = [] <;> by_cases h2 : u.path = [] <;> by_cases h3 : u.query = [] <;>
      by_cases h4 : u.fragment = [] <;> simp [h1, h2, h3, h4, hc] <;>
      (try have := List.length_pos_iff.mpr h4) <;> omega

/-- C99 is violated: the exception does occur, for every scheme, authority and query. -/
theorem C99_len_violated (scheme authority query : Bytes) (hs : scheme ≠ []) (hq : query ≠ []) :
    (made scheme authority [] query []).marshal.1.length =
      (made scheme authority [] query []).len + 1 := by
  have hc : (bs "://").length = 3 := by decide
  simp [made, URI.set, fresh, URI.marshal, URI.len, URI.rawLen, URI.text, hs, hq, hc]
  omega

example := C99_len_violated (bs "https") (bs "a.b:8080") (bs "k=v") (by decide) (by decide)

/-! ## C100: authorities -/

theorem cutByte_found (a b : Bytes) (c : Byte) (h : c ∉ a) : cutByte (a ++ c :: b) c = (a, b) := by
  unfold cutByte
  rw [indexByte_append a b c h]
  simp

theorem cutByte_not_found (a : Bytes) (c : Byte) (h : c ∉ a) : cutByte a c = (a, []) := by
  unfold cutByte
  rw [(indexByte_none_iff a c).mpr h]

/-- `host` or `host:port`. -/
def hostPort (host : Bytes) : Option Bytes → Bytes
  | none => host
  | some port => host ++ ch ':' :: port

/-- C100: an authority without user information is split at its first colon into host and port; a
missing port is empty. The user information is left as it was.
Missing: an authority with user information (refuted: `C100_user_host_violated`). -/
theorem C100_host_port_partial (a : Authority) (host : Bytes) (port : Option Bytes)
    (hne : host ≠ []) (hh : Avoids host ":@") (hp : ∀ p, port = some p → Avoids p "@") :
    a.init (hostPort host port) =
      { authority := hostPort host port, user := a.user, host := host, port := port.getD [] } := by
  have hcol : ch ':' ∉ host := fun h => hh _ h (by decide)
  have hat : ch '@' ∉ host := fun h => hh _ h (by decide)
  have key : ∀ au : Bytes, au ≠ [] → ch '@' ∉ au →
      a.init au = ⟨au, a.user, (cutByte au (ch ':')).1, (cutByte au (ch ':')).2⟩ := by
    intro au h1 h2
    unfold Authority.init
    rw [if_neg h1, (indexByte_none_iff au _).mpr h2]
  cases port with
  | none =>
    show a.init host = _
    rw [key host hne hat, cutByte_not_found host _ hcol]; rfl
  | some p =>
    have hat' : ch '@' ∉ host ++ ch ':' :: p := by
      simp only [List.mem_append, List.mem_cons, not_or]
      exact ⟨hat, by decide, fun h => hp p rfl _ h (by decide)⟩
    show a.init (host ++ ch ':' :: p) = _
    rw [key _ (by simp) hat', cutByte_found host p _ hcol]; rfl

example : Authority.init {} (bs "sabz.city:8443") =
    { authority := bs "sabz.city:8443", host := bs "sabz.city", port := bs "8443" } := by decide +kernel

/-- C100: of an authority with user information, user name and password are read correctly.
Missing: host and port of such an authority, and of a URI (refuted: `C100_user_host_violated`,
`C100_uri_host_violated`). -/
theorem C100_user_partial (a : Authority) (name rest : Bytes) (password : Option Bytes)
    (hne : name ≠ []) (hn : Avoids name ":@") (hp : ∀ p, password = some p → Avoids p "@") :
    (a.init (hostPort name password ++ ch '@' :: rest)).authority =
        hostPort name password ++ ch '@' :: rest ∧
    (a.init (hostPort name password ++ ch '@' :: rest)).user =
      { userinfo := hostPort name password, username := name, password := password.getD [] } := by
  have hcol : ch ':' ∉ name := fun h => hn _ h (by decide)
  have hat : ch '@' ∉ name := fun h => hn _ h (by decide)
  have hui : ch '@' ∉ hostPort name password := by
    cases password with
    | none => exact hat
    | some p =>
      simp only [hostPort, List.mem_append, List.mem_cons, not_or]
      exact ⟨hat, by decide, fun h => hp p rfl _ h (by decide)⟩
  obtain ⟨n, hlen⟩ : ∃ n, (hostPort name password).length = n + 1 := by
    have : 0 < name.length := List.length_pos_iff.mpr hne
    cases password with
    | none => exact ⟨name.length - 1, by simp only [hostPort]; omega⟩
    | some p => exact ⟨name.length + p.length, by simp only [hostPort, List.length_append, List.length_cons]; omega⟩
  unfold Authority.init
  rw [if_neg (by simp), indexByte_append _ rest _ hui, hlen]
  simp only
  refine ⟨trivial, ?_⟩
  rw [← hlen, List.take_left' rfl]
  cases password with
  | none => simp only [UserInformation.init, hostPort, cutByte_not_found name _ hcol]; rfl
  | some p => simp only [UserInformation.init, hostPort, cutByte_found name p _ hcol]; rfl

example := C100_user_partial {} (bs "omid") (bs "sabz.city:443") (some (bs "secret")) (by decide) (by decide) (by intro p h; cases h; decide)

/-- C100 is violated: of an authority with user information, the host and port that come after the
`@` are never read. Host and port are cut out of the user information instead. -/
theorem C100_user_host_violated (a : Authority) (name rest : Bytes) (password : Option Bytes)
    (hne : name ≠ []) (hn : Avoids name ":@") (hp : ∀ p, password = some p → Avoids p "@") :
    (a.init (hostPort name password ++ ch '@' :: rest)).host =
        (if password = none then name ++ bs "@" else name) ∧
    (a.init (hostPort name password ++ ch '@' :: rest)).port =
        (match password with
         | none => []
         | some p => p ++ bs "@") := by
  have hb : bs "@" = [ch '@'] := by decide
  have hcol : ch ':' ∉ name := fun h => hn _ h (by decide)
  have hat : ch '@' ∉ name := fun h => hn _ h (by decide)
  have hui : ch '@' ∉ hostPort name password := by
    cases password with
    | none => exact hat
    | some p =>
      simp only [hostPort, List.mem_append, List.mem_cons, not_or]
      exact ⟨hat, by decide, fun h => hp p rfl _ h (by decide)⟩
  obtain ⟨n, hlen⟩ : ∃ n, (hostPort name password).length = n + 1 := by
    have : 0 < name.length := List.length_pos_iff.mpr hne
    cases password with
    | none => exact ⟨name.length - 1, by simp only [hostPort]; omega⟩
    | some p => exact ⟨name.length + p.length, by simp only [hostPort, List.length_append, List.length_cons]; omega⟩
  have htake : (hostPort name password ++ ch '@' :: rest).take (n + 2) =
      hostPort name password ++ [ch '@'] := by
    rw [show hostPort name password ++ ch '@' :: rest = (hostPort name password ++ [ch '@']) ++ rest by simp]
    exact List.take_left' (by simp [hlen])
  unfold Authority.init
  rw [if_neg (by simp), indexByte_append _ rest _ hui, hlen]
  simp only [htake]
  cases password with
  | none =>
    have : ch ':' ∉ name ++ [ch '@'] := by
      simp only [List.mem_append, List.mem_singleton, not_or]; exact ⟨hcol, by decide⟩
    simp only [hostPort, cutByte_not_found _ _ this]
    exact ⟨by rw [if_pos trivial, hb], trivial⟩
  | some p =>
    have e : hostPort name (some p) ++ [ch '@'] = name ++ ch ':' :: (p ++ [ch '@']) := by simp [hostPort]
    rw [e, cutByte_found name _ _ hcol]
    exact ⟨by simp, by rw [hb]⟩

example : (Authority.init {} (bs "omid:secret@sabz.city:443")).host = bs "omid" ∧
    (Authority.init {} (bs "omid:secret@sabz.city:443")).port = bs "secret@" := by decide +kernel

/-- C100 is violated: reading a URI never sets host and port, whatever its authority is. -/
theorem C100_uri_host_violated (u : URI) (scheme authority : Bytes) (t : Tail) (rest : Bytes)
    (hne : scheme ≠ []) (hs : Avoids scheme ":/?# ") (hstar : scheme.head? ≠ some (ch '*'))
    (ha : Avoids authority "/?# ") (ht : t.WellFormed) (hf : t.PlainFragment) (hr : Ends rest) :
    ∃ u' e, unmarshalFromString u (absoluteForm scheme authority t ++ rest) = some (u', e) ∧
      u'.au.authority = authority ∧ u'.au.host = u.au.host ∧ u'.au.port = u.au.port ∧
      u'.au.user = u.au.user :=
  ⟨_, _, C96_absolute_form_partial u scheme authority t rest hne hs hstar ha ht hf hr,
    rfl, rfl, rfl, rfl⟩

example := C100_uri_host_violated fresh (bs "https") (bs "u@a.b:80") ⟨bs "/x", some (bs "q=1"), none⟩ (bs " HTTP/1.1") (by decide) (by decide) (by decide)
  (by decide) ⟨by decide, by decide, by intro q h; cases h; decide, by intro f h; cases h⟩ (by intro h; cases h) (.inr rfl)

end Memar.Uri
