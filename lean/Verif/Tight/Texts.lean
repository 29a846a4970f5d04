import Verif.Http.ContentType
import Verif.Http.CookieProps
import Verif.Net.AddrProps
import Verif.Uri.QueryProps

/-!
# Hosts that do not decode, empty values of header lines, separators in cookie names, short parameters, semicolons in queries, bad addresses
-/

namespace Memar.Uri
open Memar Spec

theorem decodes_escaped (m : Mode) (hm : m = .host ∨ m = .zone) (s : Bytes) :
    ∀ t, Decodes m (s.flatMap (escByte m)) t → ∀ c ∈ s, RoundTrips m c := by
  induction s with
  | nil => intro t _ c hc; cases hc
  | cons c s ih =>
    intro t h
    have hq : m ≠ .queryComponent := by rcases hm with rfl | rfl <;> decide
    have e : ∃ t', Decodes m (s.flatMap (escByte m)) t' ∧ RoundTrips m c := by
      rw [List.flatMap_cons] at h
      generalize hr : s.flatMap (escByte m) = r at h
      by_cases hs : shouldEscape c m = true
      · rw [show escByte m c = [ch '%', upperhex (c >>> 4), upperhex (c &&& 15)] by
          rw [escByte, if_neg (fun k => hq k.2), if_pos hs]] at h
        simp only [List.cons_append, List.nil_append] at h
        obtain ⟨v1, v2⟩ := upperhex_val c
        generalize hA : upperhex (c >>> 4) = A at h v1
        generalize hB : upperhex (c &&& 15) = B at h v2
        generalize hl : ch '%' :: A :: B :: r = l at h
        cases h with
        | nil => cases hl
        | esc a b x y s' t' ha hb hal hd =>
          simp only [List.cons.injEq, true_and] at hl
          obtain ⟨rfl, rfl, rfl⟩ := hl
          rw [v1] at ha
          rw [v2] at hb
          cases ha
          cases hb
          refine ⟨t', hd, ?_⟩
          have hsum : 16 * (c.toNat / 16) + c.toNat % 16 = c.toNat := Nat.div_add_mod _ _
          rw [hsum] at hal
          have h25 : A = ch '2' ∧ B = ch '5' → c = ch '%' := by
            rintro ⟨rfl, rfl⟩
            rw [show hexVal (ch '2') = some 2 by decide] at v1
            rw [show hexVal (ch '5') = some 5 by decide] at v2
            have e1 := Option.some.inj v1
            have e2 := Option.some.inj v2
            apply BitVec.eq_of_toNat_eq
            have : (ch '%').toNat = 37 := by decide
            omega
          rcases hm with rfl | rfl
          · rcases hal.1 rfl with k | k
            · exact .inl k
            · exact .inr (.inl (h25 k))
          · rcases hal.2 rfl with k | k | k
            · exact .inr (.inl (h25 k))
            · left
              apply BitVec.eq_of_toNat_eq
              rw [k]; decide
            · right; right
              simpa using k
        | plus s' t' hm' _ => exact absurd hm' hq
        | raw c' s' t' hc' _ _ _ =>
          simp only [List.cons.injEq] at hl
          exact absurd hl.1.symm hc'
      · rw [show escByte m c = [c] by rw [escByte, if_neg (fun k => hq k.2), if_neg hs]] at h
        simp only [List.cons_append, List.nil_append] at h
        have hlit := (shouldEscape_iff m c).1 (by simpa using hs)
        have hne : c ≠ ch '%' := by
          rintro rfl
          exact hs (pct_escaped m)
        have hrt : RoundTrips m c := by
          rcases hm with rfl | rfl
          · exact .inr (.inr hlit)
          · exact .inr (.inr hlit)
        generalize hl : c :: r = l at h
        cases h with
        | nil => cases hl
        | esc a b x y s' t' ha hb hal hd =>
          simp only [List.cons.injEq] at hl
          exact absurd hl.1 hne
        | plus s' t' hm' _ => exact absurd hm' hq
        | raw c' s' t' _ _ _ hd =>
          simp only [List.cons.injEq] at hl
          obtain ⟨rfl, rfl⟩ := hl
          exact ⟨t', hd, hrt⟩
    obtain ⟨t', h1, h2⟩ := e
    intro x hx
    rcases List.mem_cons.1 hx with rfl | hx
    · exact h2
    · exact ih t' h1 x hx

/-- **C251** violated for every host name or zone identifier with a byte outside of those that survive: the encoder writes a text, and the decoder refuses it with
an error. Hosts survive exactly if all bytes are outside ASCII, percent signs or literal; zones exactly if all are spaces, percent signs or literal in hosts. -/
theorem C251_host_exact_violated (s : Bytes) (m : Mode) (hm : m = .host ∨ m = .zone) :
    ∃ t, escape s m = some t ∧
      ((∀ c ∈ s, RoundTrips m c) → unescape t m = some (.ok s)) ∧
      ((∃ c ∈ s, ¬ RoundTrips m c) → ∃ e, unescape t m = some (.error e)) := by
  obtain ⟨t, h1⟩ : ∃ t, escape s m = some t := ⟨_, escape_eq s m⟩
  refine ⟨t, h1, fun h => ?_, fun ⟨c, hc, hn⟩ => ?_⟩
  · obtain ⟨t', h2, h3⟩ := C251_roundtrip_partial s m h
    rw [h1] at h2
    cases h2
    exact h3
  · obtain ⟨r, hr⟩ := (C12_unescape_exact t m).1
    cases r with
    | error e => exact ⟨e, hr⟩
    | ok u =>
      rw [(C12_unescape_exact t m).2] at hr
      rw [escape_eq] at h1
      cases h1
      exact absurd (decodes_escaped m hm s u hr c hc) hn

example : ¬ RoundTrips .host (ch ' ') ∧ ¬ RoundTrips .zone 0x80 ∧ RoundTrips .host (ch 'a') := by
  refine ⟨?_, ?_, ?_⟩
  · intro h; rcases h with h | h | h <;> revert h <;> decide +kernel
  · intro h; rcases h with h | h | h <;> revert h <;> decide +kernel
  · exact .inr (.inr (by decide +kernel))

theorem mem_colon : ∀ c : Byte, c ∈ bs ":" → c = ch ':' := by decide +kernel
theorem mem_equals : ∀ c : Byte, c ∈ bs "=" → c = ch '=' := by decide +kernel
theorem mem_pct_plus : ∀ c : Byte, c ∈ bs "%+" → c = ch '%' ∨ c = ch '+' := by decide +kernel

theorem decodes_plain (s : Bytes) (h : Avoids s "%+") : Decodes .queryComponent s s := by
  induction s with
  | nil => exact .nil
  | cons c s ih =>
    have hc := h c (by simp)
    refine .raw c s s ?_ ?_ ?_ (ih fun x hx => h x (by simp [hx]))
    · rintro rfl; exact hc (by decide)
    · rintro ⟨rfl, _⟩; exact hc (by decide)
    · intro hm; rcases hm with hm | hm <;> cases hm

/-- **C213** violated for every setting with a semicolon in its value: it is taken, with the semicolon as part of the value. -/
theorem C213_semicolon_any_violated (m : Values) (key a b : Bytes) (hk : Avoids key "&=:%+") (ha : Avoids a "&:%+") (hb : Avoids b "&:%+") :
    ∃ m', fromString m (key ++ ch '=' :: (a ++ ch ';' :: b)) = some (m', none) ∧
      m' key = some ((m key).getD [] ++ [a ++ ch ';' :: b]) ∧ ∀ k, k ≠ key → m' k = m k := by
  refine ⟨m.put key ((m key).getD [] ++ [a ++ ch ';' :: b]), ?_, by simp [Values.put], fun k hne => by simp [Values.put, hne]⟩
  have av : ∀ (cs : String) (t : Bytes) (c : Byte), Avoids t cs → c ∈ bs cs → c ∉ t := fun cs t c h1 h2 h3 => h1 c h3 h2
  have hamp : ch '&' ∉ key ++ ch '=' :: (a ++ ch ';' :: b) := by
    simp only [List.mem_append, List.mem_cons, not_or]
    exact ⟨av _ _ _ hk (by decide), by decide, av _ _ _ ha (by decide), by decide, av _ _ _ hb (by decide)⟩
  have := settings_join [key ++ ch '=' :: (a ++ ch ';' :: b)] m none (by
    intro x hx; rw [List.mem_singleton] at hx; rw [hx]; exact hamp)
  rw [fromString, show key ++ ch '=' :: (a ++ ch ';' :: b) = joinAnd [key ++ ch '=' :: (a ++ ch ';' :: b)] from rfl, this]
  rw [List.foldl_cons, List.foldl_nil]
  simp only [Option.bind_some]
  refine oneSetting_good m none _ key (a ++ ch ';' :: b) (by simp) ?_ ?_
  · intro c hc hcc
    have : c = ch ':' := mem_colon c hcc
    subst this
    simp only [List.mem_append, List.mem_cons] at hc
    rcases hc with h | h | h | h | h
    · exact av _ _ _ hk (by decide) h
    · exact absurd h (by decide)
    · exact av _ _ _ ha (by decide) h
    · exact absurd h (by decide)
    · exact av _ _ _ hb (by decide) h
  · refine Means.mk key (some (a ++ ch ';' :: b)) _ _ ?_ (decodes_plain _ ?_) (decodes_plain _ ?_)
    · intro c hc hcc
      have : c = ch '=' := mem_equals c hcc
      subst this
      exact av _ _ _ hk (by decide) hc
    · intro c hc hcc
      have : c = ch '%' ∨ c = ch '+' := mem_pct_plus c hcc
      rcases this with rfl | rfl
      · exact av _ _ _ hk (by decide) hc
      · exact av _ _ _ hk (by decide) hc
    · intro c hc hcc
      have : c = ch '%' ∨ c = ch '+' := mem_pct_plus c hcc
      simp only [Option.getD_some, List.mem_append, List.mem_cons] at hc
      rcases hc with h | h | h
      · rcases this with rfl | rfl
        · exact av _ _ _ ha (by decide) h
        · exact av _ _ _ ha (by decide) h
      · subst h; revert this; decide
      · rcases this with rfl | rfl
        · exact av _ _ _ hb (by decide) h
        · exact av _ _ _ hb (by decide) h

example : Avoids (bs "a") "&=:%+" ∧ Avoids (bs "1") "&:%+" ∧ Avoids (bs "b=2") "&:%+" := by decide +kernel

end Memar.Uri

namespace Memar.Http
open Memar Spec

theorem nthNext_stops (h : Header) (key : Bytes) (n s : Nat) (vs ws : List Bytes)
    (hv : ∀ v ∈ vs, v ≠ []) (e : valuesOf (h.lines.drop s) key = vs ++ [] :: ws) :
    h.nthNext key s n = vs[n]? := by
  induction n generalizing s vs with
  | zero =>
    unfold Header.nthNext Header.next Header.find
    rw [findLoop_eq]
    rcases goFind_spec key (h.lines.drop s) s with ⟨h1, h2⟩ | ⟨v, j, h1, h2⟩
    · rw [e] at h1; cases vs <;> cases h1
    · rw [e] at h2
      cases vs with
      | nil =>
        simp only [List.nil_append, List.cons.injEq] at h2
        rw [h1, ← h2.1]; rfl
      | cons w vs =>
        simp only [List.cons_append, List.cons.injEq] at h2
        have : w ≠ [] := hv w (by simp)
        rw [h1, ← h2.1]; simp [this]
  | succ n ih =>
    unfold Header.nthNext
    rcases goFind_spec key (h.lines.drop s) s with ⟨h1, h2⟩ | ⟨v, j, h1, h2⟩
    · rw [e] at h1; cases vs <;> cases h1
    · have h2' := h2
      rw [e] at h2'
      cases vs with
      | nil =>
        simp only [List.nil_append, List.cons.injEq] at h2'
        have e2 : (h.next key s).2 = s := by
          simp [Header.next, Header.find, findLoop_eq, h1, ← h2'.1]
        rw [e2, ih s [] (by simp) e]
        simp
      | cons w vs =>
        simp only [List.cons_append, List.cons.injEq] at h2'
        have hne : v ≠ [] := by rw [← h2'.1]; exact hv w (by simp)
        have e2 : (h.next key s).2 = s + (j + 1) := by
          simp [Header.next, Header.find, findLoop_eq, h1, hne]; omega
        rw [e2, ih (s + (j + 1)) vs (fun x hx => hv x (by simp [hx])) (by rw [← List.drop_drop, ← h2'.2])]
        simp

/-- **C180** violated for every list of values with an empty one: walking the lines gives the values before the first empty one and then reports the end, for ever,
whatever values follow. -/
theorem C180_iteration_stops_at_any_empty_value_violated (ops : List Op) (key : Bytes) (hk : key ≠ []) (vs ws : List Bytes)
    (hv : ∀ v ∈ vs, v ≠ []) (e : valuesOf (additions ops) key = vs ++ [] :: ws) (n : Nat) :
    (Header.run ops).nthNext key 0 n = vs[n]? :=
  nthNext_stops _ key n 0 vs ws hv (by rw [List.drop_zero, run_values ops key hk, e])

example : valuesOf (additions [.add (bs "a") (bs "1"), .add (bs "a") [], .add (bs "a") (bs "2")]) (bs "a") = [bs "1"] ++ [] :: [bs "2"] := by
  decide +kernel

/-- **C180** for the empty name: it always reads as empty, after every history, whatever was added under it: the blank lines made by `Init` answer first. -/
theorem C180_empty_name_always_empty_violated (ops : List Op) (v : Bytes) :
    (Header.run ops).get [] = [] ∧ ((Header.run (ops ++ [.add [] v])).get [] = [] ∧
      valuesOf (additions (ops ++ [.add [] v])) [] = valuesOf (additions ops) [] ++ [v]) := by
  have key : ∀ (ops : List Op) (h : Header), h.lines.head? = some ([], []) →
      (ops.foldl Header.apply h).lines.head? = some ([], []) := by
    intro ops
    induction ops with
    | nil => intro h e; exact e
    | cons o ops ih =>
      intro h e
      refine ih _ ?_
      cases o with
      | add k v =>
        simp only [Header.apply, Header.add]
        cases hl : h.lines with
        | nil => rw [hl] at e; cases e
        | cons p r => rw [hl] at e; simpa using e
      | reinit =>
        simp only [Header.apply, Header.reinit]
        cases hl : h.lines with
        | nil => rw [hl] at e; cases e
        | cons p r => simp
  have g : ∀ ops : List Op, (Header.run ops).get [] = [] := by
    intro ops
    have := key ops Header.init (by decide +kernel)
    rw [get_eq, firstValue]
    change (Header.run ops).lines.head? = _ at this
    cases hl : (Header.run ops).lines with
    | nil => rfl
    | cons p r =>
      rw [hl] at this
      simp only [List.head?_cons, Option.some.injEq] at this
      subst this
      simp [valuesOf]
  refine ⟨g ops, g _, ?_⟩
  have e : ∀ ops : List Op, additions ops = ops.foldl (fun acc o => match o with | .add k v => acc ++ [(k, v)] | .reinit => []) [] := by
    intro ops; cases ops <;> rfl
  rw [e, e, List.foldl_append]
  simp [valuesOf]

/-- **C182** violated for every name: any byte other than a line break passes unchanged and without error, be it a separator, a space or a control character. -/
theorem C182_name_any_byte_survives_violated (a b : Bytes) (c : Byte) (hc : c ≠ 10#8 ∧ c ≠ 13#8) (ha : ¬(10#8 ∈ a ∨ 13#8 ∈ a)) (hb : ¬(10#8 ∈ b ∨ 13#8 ∈ b)) :
    sanitizeCookieName (a ++ c :: b) = (a ++ c :: b, none) := by
  refine sanitizeCookieName_clean _ ?_
  rw [not_or] at ha hb
  simp only [List.mem_append, List.mem_cons, not_or]
  exact ⟨⟨ha.1, fun h => hc.1 h.symm, hb.1⟩, ⟨ha.2, fun h => hc.2 h.symm, hb.2⟩⟩

example : sanitizeCookieName (bs "a=b; c") = (bs "a=b; c", none) :=
  C182_name_any_byte_survives_violated (bs "a") (bs "b; c") (ch '=') (by decide) (by decide +kernel) (by decide +kernel)

/-- **C257**: unless an empty Cache-Control line comes first, doing it twice is doing it once.
Missing: an empty Cache-Control line in front (refuted: `C257_empty_cache_control_violated`). -/
theorem C257_pragma_idempotent_partial (h : Header)
    (hc : h.get (bs "Cache-Control") ≠ [] ∨ ∀ p ∈ h.lines, p.1 ≠ bs "Cache-Control") :
    h.fixPragmaCacheControl.fixPragmaCacheControl = h.fixPragmaCacheControl := by
  by_cases h1 : h.get (bs "Pragma") = bs "no-cache" ∧ h.get (bs "Cache-Control") = []
  · rcases hc with hc | hc
    · exact absurd h1.2 hc
    · have := (C57_pragma_rule h).1 h1.1 h1.2 hc
      refine (C57_pragma_rule h.fixPragmaCacheControl).2.1 (.inr ?_)
      rw [this]; decide +kernel
  · have e : h.fixPragmaCacheControl = h := by
      refine (C57_pragma_rule h).2.1 ?_
      by_cases h2 : h.get (bs "Pragma") = bs "no-cache"
      · exact .inr fun h3 => h1 ⟨h2, h3⟩
      · exact .inl h2
    rw [e, e]

example := C257_pragma_idempotent_partial ⟨[(bs "Pragma", bs "no-cache"), (bs "Host", bs "a")]⟩ (.inr (by decide +kernel))
example := C257_pragma_idempotent_partial ⟨[(bs "Cache-Control", bs "no-store"), (bs "Pragma", bs "no-cache")]⟩ (.inl (by decide +kernel))

/-- **C257** violated when a Cache-Control line with an empty value comes first: a line is added although Cache-Control is given, what is read stays empty, and
every further call adds one more line. -/
theorem C257_empty_cache_control_violated (h : Header) (hp : h.get (bs "Pragma") = bs "no-cache")
    (hc : (valuesOf h.lines (bs "Cache-Control")).head? = some []) :
    h.fixPragmaCacheControl.get (bs "Cache-Control") = [] ∧
    h.fixPragmaCacheControl.lines = h.lines ++ [(bs "Cache-Control", bs "no-cache")] ∧
    h.fixPragmaCacheControl.fixPragmaCacheControl.lines =
      h.lines ++ [(bs "Cache-Control", bs "no-cache"), (bs "Cache-Control", bs "no-cache")] := by
  have g : ∀ h : Header, (valuesOf h.lines (bs "Cache-Control")).head? = some [] → h.get (bs "Cache-Control") = [] := by
    intro h hc
    rw [get_eq, firstValue]
    cases hv : valuesOf h.lines (bs "Cache-Control") with
    | nil => rfl
    | cons v r => rw [hv] at hc; cases hc; rfl
  have step : ∀ h : Header, h.get (bs "Pragma") = bs "no-cache" → (valuesOf h.lines (bs "Cache-Control")).head? = some [] →
      h.fixPragmaCacheControl = h.add (bs "Cache-Control") (bs "no-cache") ∧
      (valuesOf (h.add (bs "Cache-Control") (bs "no-cache")).lines (bs "Cache-Control")).head? = some [] := by
    intro h hp hc
    constructor
    · unfold Header.fixPragmaCacheControl
      rw [if_pos hp, if_pos (g h hc)]
    · rw [Header.add, valuesOf_append]
      cases hv : valuesOf h.lines (bs "Cache-Control") with
      | nil => rw [hv] at hc; cases hc
      | cons v r => rw [hv] at hc; simpa using hc
  obtain ⟨e1, e2⟩ := step h hp hc
  have hp2 : (h.add (bs "Cache-Control") (bs "no-cache")).get (bs "Pragma") = bs "no-cache" := by
    rw [← e1, (C57_pragma_rule h).2.2 _ (by decide +kernel), hp]
  obtain ⟨e3, _⟩ := step _ hp2 e2
  rw [e1]
  refine ⟨g _ e2, rfl, ?_⟩
  rw [e3]
  simp [Header.add]

example : ∃ h : Header, h.get (bs "Pragma") = bs "no-cache" ∧ (valuesOf h.lines (bs "Cache-Control")).head? = some [] :=
  ⟨⟨[(bs "Pragma", bs "no-cache"), (bs "Cache-Control", [])]⟩, by decide +kernel⟩

/-- **C279** violated for every parameter that is too short: one that starts with `c` and has fewer than eight bytes (`charset=` has eight), or with `b` and
fewer than nine (`boundary=` has nine), makes the parser panic; so does an empty one; a longer one does not. -/
theorem C279_short_parameter_any_violated (t s p : Bytes) (ht : ch '/' ∉ t ∧ ch ';' ∉ t) (hs : ch '/' ∉ s ∧ ch ';' ∉ s)
    (hp : ch '/' ∉ p ∧ ch ';' ∉ p) :
    contentTypeFromString (t ++ ch '/' :: (s ++ ch ';' :: ch ' ' :: p)) = none ↔
      p = [] ∨ (p.head? = some (ch 'c') ∧ p.length < 8) ∨ (p.head? = some (ch 'b') ∧ p.length < 9) := by
  rw [C199_content_type_parts t s p ht hs hp, Option.map_eq_none_iff]
  cases p with
  | nil => simp [ctParam]
  | cons b r =>
    unfold ctParam
    by_cases hc : b = ch 'c'
    · subst hc
      have : ch 'c' ≠ ch 'b' := by decide
      simp [sliceFrom, this]
      omega
    · by_cases hb : b = ch 'b'
      · subst hb
        have : ch 'b' ≠ ch 'c' := by decide
        simp [sliceFrom, this]
        omega
      · simp [hc, hb]

example := C279_short_parameter_any_violated (bs "text") (bs "html") (bs "chars") (by decide +kernel) (by decide +kernel) (by decide +kernel)

/-- **C279** violated for every text without a semicolon that starts with `c` and is shorter than eight bytes, or with `b` and shorter than nine: the text
itself is taken for the parameter, and the parser panics. -/
theorem C279_short_text_any_violated (s : Bytes) (h : ch ';' ∉ s) :
    contentTypeFromString s = none ↔
      s = [] ∨ (s.head? = some (ch 'c') ∧ s.length < 8) ∨ (s.head? = some (ch 'b') ∧ s.length < 9) := by
  obtain ⟨f, e⟩ := ctLoop_no_semi s 0 0 [] [] h
  unfold contentTypeFromString
  rw [e]
  simp only [Option.map_eq_none_iff]
  cases s with
  | nil => simp [ctParam]
  | cons b r =>
    unfold ctParam
    by_cases hc : b = ch 'c'
    · subst hc
      have : ch 'c' ≠ ch 'b' := by decide
      simp [sliceFrom, this]
      omega
    · by_cases hb : b = ch 'b'
      · subst hb
        have : ch 'b' ≠ ch 'c' := by decide
        simp [sliceFrom, this]
        omega
      · simp [hc, hb]

example := C279_short_text_any_violated (bs "bound") (by decide +kernel)

end Memar.Http

namespace Memar.Net.Ipv4Addr
open Memar AddrSpec

theorem octet_bad (bad : Bytes) (h : ∀ c, bad.head? = some c → ¬ (48#8 ≤ c ∧ c ≤ 57#8)) : octet bad = none := by
  unfold octet
  cases bad with
  | nil => simp [dtoi, dtoiLoop]
  | cons c r =>
    have := h c rfl
    simp [dtoi, dtoiLoop, this]

/-- **C255** violated for every text with fewer than four octets before it goes wrong: the octets read so far are in the address, the others are the old ones. -/
theorem C255_bad_text_any_violated (old : Bytes) (hold : old.length = 4) (good : Bytes) (hg : good.length < 4) (bad : Bytes)
    (hb : ∀ c, bad.head? = some c → ¬ (48#8 ≤ c ∧ c ≤ 57#8)) :
    fromString old (good.flatMap (fun a => dec a.toNat ++ [ch '.']) ++ bad) = good ++ old.drop good.length := by
  have nd : ¬ (48#8 ≤ ch '.' ∧ ch '.' ≤ 57#8) := by decide
  have hsep : ∀ (i : Nat) (t : Bytes), separator (i + 1) (ch '.' :: t) = some t := by
    intro i t; simp [separator]
  have h0 : ∀ (a : Byte) (t : Bytes), separator 0 (dec a.toNat ++ t) = some (dec a.toNat ++ t) := by
    intro a t
    have := dec_len a
    cases hd : dec a.toNat with
    | nil => rw [hd] at this; simp at this
    | cons c s => simp [separator]
  have ndot : ∀ (t : Bytes) (c : Byte), (ch '.' :: t).head? = some c → ¬ (48#8 ≤ c ∧ c ≤ 57#8) := by
    intro t c hc; simp at hc; rw [← hc]; exact nd
  have hbad := octet_bad bad hb
  match old, hold, good, hg with
  | [b0, b1, b2, b3], _, [], _ =>
    unfold fromString fromStringLoop
    cases bad with
    | nil => simp [separator]
    | cons c r => simp [separator, hbad]
  | [b0, b1, b2, b3], _, [a0], _ =>
    unfold fromString fromStringLoop
    simp only [List.flatMap_cons, List.flatMap_nil, List.append_assoc, List.cons_append, List.nil_append]
    rw [h0]
    simp only [octet_dec a0 _ (ndot _)]
    unfold fromStringLoop
    rw [hsep]
    simp [hbad]
  | [b0, b1, b2, b3], _, [a0, a1], _ =>
    unfold fromString fromStringLoop
    simp only [List.flatMap_cons, List.flatMap_nil, List.append_assoc, List.cons_append, List.nil_append]
    rw [h0]
    simp only [octet_dec a0 _ (ndot _)]
    unfold fromStringLoop
    rw [hsep]
    simp only [octet_dec a1 _ (ndot _)]
    unfold fromStringLoop
    rw [hsep]
    simp [hbad]
  | [b0, b1, b2, b3], _, [a0, a1, a2], _ =>
    unfold fromString fromStringLoop
    simp only [List.flatMap_cons, List.flatMap_nil, List.append_assoc, List.cons_append, List.nil_append]
    rw [h0]
    simp only [octet_dec a0 _ (ndot _)]
    unfold fromStringLoop
    rw [hsep]
    simp only [octet_dec a1 _ (ndot _)]
    unfold fromStringLoop
    rw [hsep]
    simp only [octet_dec a2 _ (ndot _)]
    unfold fromStringLoop
    rw [hsep]
    simp [hbad]

example : fromString [1, 2, 3, 4] (bs "9.9.x") = [9#8, 9#8, 3#8, 4#8] := by decide +kernel

end Memar.Net.Ipv4Addr
