import Verif.Http.CookieSpec
import Verif.Http.HeaderProps

/-! # C17, C53–C57: cookies and coding lists -/

namespace Memar.Http
open Memar Spec

/-! ## C17: sanitising -/

theorem dropLoop_eq (ok : Byte → Bool) (e : CookieErr) (v : Bytes) :
    dropLoop ok e v = (v.filter ok, if ∀ b ∈ v, ok b = true then none else some e) := by
  have gen : ∀ (v acc : Bytes) (er : Option CookieErr),
      v.foldl (fun acc b => if ok b then (acc.1 ++ [b], acc.2) else (acc.1, some e)) (acc, er) =
        (acc ++ v.filter ok, if ∀ b ∈ v, ok b = true then er else some e) := by
    intro v
    induction v with
    | nil => intro acc er; simp
    | cons b v ih =>
      intro acc er
      rw [List.foldl_cons]
      by_cases h : ok b = true
      · rw [if_pos h, ih]; simp [h]
      · rw [if_neg h, ih]
        simp only [List.mem_cons, forall_eq_or_imp, h, false_and, if_false]
        rw [List.filter_cons_of_neg h]
        simp
  have := gen v [] none
  rw [List.nil_append] at this
  exact this

theorem valueByteOk_iff : ∀ b : Byte, valueByteOk b = true ↔ (CookieOctet b ∨ b = ch ';') := by
  decide +kernel

theorem pathByteOk_iff : ∀ b : Byte, pathByteOk b = true ↔ (PathChar b ∨ b = ch ';') := by
  decide +kernel

/-- C17: exactly the cookie octets and semicolons of the value are kept, in order, and an error is
reported exactly when something was dropped. -/
theorem C17_value_exact (v : Bytes) :
    sanitizeCookieValue v = (v.filter (fun b => decide (CookieOctet b ∨ b = ch ';')),
      if ∀ b ∈ v, CookieOctet b ∨ b = ch ';' then none else some .badValue) := by
  unfold sanitizeCookieValue
  rw [dropLoop_eq]
  have : valueByteOk = fun b => decide (CookieOctet b ∨ b = ch ';') := by
    funext b
    rw [Bool.eq_iff_iff, valueByteOk_iff]; simp
  rw [this]; simp

/-- C17: the same for the path. -/
theorem C17_path_exact (v : Bytes) :
    sanitizeCookiePath v = (v.filter (fun b => decide (PathChar b ∨ b = ch ';')),
      if ∀ b ∈ v, PathChar b ∨ b = ch ';' then none else some .badPath) := by
  unfold sanitizeCookiePath
  rw [dropLoop_eq]
  have : pathByteOk = fun b => decide (PathChar b ∨ b = ch ';') := by
    funext b
    rw [Bool.eq_iff_iff, pathByteOk_iff]; simp
  rw [this]; simp

/-- C17: legal values and paths are returned unchanged without error. -/
theorem C17_legal_unchanged (v : Bytes) :
    ((∀ b ∈ v, CookieOctet b) → sanitizeCookieValue v = (v, none)) ∧
    ((∀ b ∈ v, PathChar b) → sanitizeCookiePath v = (v, none)) := by
  constructor
  · intro h
    rw [C17_value_exact, if_pos (fun b hb => .inl (h b hb))]
    simp only [Prod.mk.injEq, and_true, List.filter_eq_self]
    intro b hb; simp [h b hb]
  · intro h
    rw [C17_path_exact, if_pos (fun b hb => .inl (h b hb))]
    simp only [Prod.mk.injEq, and_true, List.filter_eq_self]
    intro b hb; simp [h b hb]

/-- C17: sanitising invents nothing and sanitising again changes nothing and reports no error. -/
theorem C17_subsequence_and_idempotent (v : Bytes) :
    (sanitizeCookieValue v).1.Sublist v ∧ (sanitizeCookiePath v).1.Sublist v ∧
    sanitizeCookieValue (sanitizeCookieValue v).1 = ((sanitizeCookieValue v).1, none) ∧
    sanitizeCookiePath (sanitizeCookiePath v).1 = ((sanitizeCookiePath v).1, none) := by
  refine ⟨?_, ?_, ?_, ?_⟩
  · rw [C17_value_exact]; exact List.filter_sublist
  · rw [C17_path_exact]; exact List.filter_sublist
  · have h := C17_value_exact (v.filter (fun b => decide (CookieOctet b ∨ b = ch ';')))
    rw [if_pos (by intro b hb; simpa using (List.mem_filter.mp hb).2)] at h
    simp only [List.filter_filter, Bool.and_self] at h
    rw [C17_value_exact v]; exact h
  · have h := C17_path_exact (v.filter (fun b => decide (PathChar b ∨ b = ch ';')))
    rw [if_pos (by intro b hb; simpa using (List.mem_filter.mp hb).2)] at h
    simp only [List.filter_filter, Bool.and_self] at h
    rw [C17_path_exact v]; exact h

/-- C182, what holds of the output bytes: legal or a semicolon.
Missing: that no semicolon is left, and cookie names (refuted:
`C182_semicolon_survives_violated`, `C182_name_separators_survive_violated`,
`C182_name_any_byte_survives_violated`). -/
theorem C182_output_bytes_partial (v : Bytes) :
    (∀ b ∈ (sanitizeCookieValue v).1, CookieOctet b ∨ b = ch ';') ∧
    (∀ b ∈ (sanitizeCookiePath v).1, PathChar b ∨ b = ch ';') := by
  constructor
  · intro b hb; rw [C17_value_exact] at hb; simpa using (List.mem_filter.mp hb).2
  · intro b hb; rw [C17_path_exact] at hb; simpa using (List.mem_filter.mp hb).2

/-- C182 violated: every value and path that contains a semicolon still contains it afterwards, although
the grammar forbids it; a value that is otherwise legal is passed without any error. -/
theorem C182_semicolon_survives_violated (v : Bytes) (h : ch ';' ∈ v) :
    ch ';' ∈ (sanitizeCookieValue v).1 ∧ ¬ CookieOctet (ch ';') ∧
    ch ';' ∈ (sanitizeCookiePath v).1 ∧ ¬ PathChar (ch ';') ∧
    (sanitizeCookieValue (bs "a; Domain=evil")).2 = some .badValue ∧
    sanitizeCookieValue (bs "a;b") = (bs "a;b", none) := by
  refine ⟨?_, by decide, ?_, by decide, by decide +kernel, by decide +kernel⟩
  · rw [C17_value_exact]; exact List.mem_filter.mpr ⟨h, by simp⟩
  · rw [C17_path_exact]; exact List.mem_filter.mpr ⟨h, by simp⟩

example := C182_semicolon_survives_violated (bs "a;b") (by decide +kernel)

theorem sanitizeCookieName_eq (n : Bytes) :
    sanitizeCookieName n = (n.map (fun b => if b = 10#8 ∨ b = 13#8 then ch '-' else b),
      if 10#8 ∈ n ∨ 13#8 ∈ n then some .badName else none) := by
  have gen : ∀ (v acc : Bytes) (er : Option CookieErr),
      v.foldl (fun acc b => (acc.1 ++ [(nameByte b).1], if (nameByte b).2 then some CookieErr.badName else acc.2)) (acc, er) =
        (acc ++ v.map (fun b => if b = 10#8 ∨ b = 13#8 then ch '-' else b),
         if 10#8 ∈ v ∨ 13#8 ∈ v then some .badName else er) := by
    intro v
    induction v with
    | nil => intro acc er; simp
    | cons b v ih =>
      intro acc er
      rw [List.foldl_cons, ih]
      by_cases h : b = 10#8 ∨ b = 13#8
      · have : (10#8 ∈ b :: v ∨ 13#8 ∈ b :: v) := by
          rcases h with h | h <;> simp [h]
        rw [if_pos this]
        simp [nameByte, h]
      · have : (10#8 ∈ b :: v ∨ 13#8 ∈ b :: v) ↔ (10#8 ∈ v ∨ 13#8 ∈ v) := by
          simp only [not_or] at h
          simp only [List.mem_cons, Ne.symm h.1, Ne.symm h.2, false_or]
        simp only [this]
        simp [nameByte, h]
  have := gen n [] none
  rw [List.nil_append] at this
  exact this

/-- C17: the sanitised name has the length of the name, differs from it only where a line break was,
has no line break left, and the error is reported exactly when there was one. -/
theorem C17_name_line_breaks (n : Bytes) :
    (sanitizeCookieName n).1.length = n.length ∧
    10#8 ∉ (sanitizeCookieName n).1 ∧ 13#8 ∉ (sanitizeCookieName n).1 ∧
    (∀ i (h : i < n.length), n[i] ≠ 10#8 → n[i] ≠ 13#8 → (sanitizeCookieName n).1[i]? = some n[i]) ∧
    ((sanitizeCookieName n).2 ≠ none ↔ 10#8 ∈ n ∨ 13#8 ∈ n) ∧
    sanitizeCookieName (sanitizeCookieName n).1 = ((sanitizeCookieName n).1, none) := by
  have no : ∀ (c : Byte), (c = 10#8 ∨ c = 13#8) →
      c ∉ n.map (fun b => if b = 10#8 ∨ b = 13#8 then ch '-' else b) := by
    intro c hc hm
    obtain ⟨b, _, e⟩ := List.mem_map.mp hm
    by_cases h : b = 10#8 ∨ b = 13#8
    · rw [if_pos h] at e; subst e; revert hc; decide
    · rw [if_neg h] at e; subst e; exact h hc
  refine ⟨?_, ?_, ?_, ?_, ?_, ?_⟩
  · rw [sanitizeCookieName_eq]; simp
  · rw [sanitizeCookieName_eq]; exact no 10#8 (.inl rfl)
  · rw [sanitizeCookieName_eq]; exact no 13#8 (.inr rfl)
  · intro i h h1 h2
    rw [sanitizeCookieName_eq]
    simp [h, h1, h2]
  · rw [sanitizeCookieName_eq]; split <;> simp_all
  · have e := sanitizeCookieName_eq (n.map (fun b => if b = 10#8 ∨ b = 13#8 then ch '-' else b))
    have h10 := no 10#8 (.inl rfl)
    have h13 := no 13#8 (.inr rfl)
    rw [if_neg (by simp only [not_or]; exact ⟨h10, h13⟩)] at e
    rw [sanitizeCookieName_eq n, e]
    congr 1
    conv => rhs; rw [← List.map_id (List.map _ n)]
    apply List.map_congr_left
    intro b hb
    rw [if_neg]; · rfl
    rintro (h | h)
    · rw [h] at hb; exact h10 hb
    · rw [h] at hb; exact h13 hb

/-- C182 violated for names: bytes that are no token characters (here `=`, `;` and space) pass unchanged
and without error. -/
theorem C182_name_separators_survive_violated :
    sanitizeCookieName (bs "a=b; c") = (bs "a=b; c", none) := by decide +kernel

example : (∀ b ∈ bs "abc-123", CookieOctet b) ∧ (∀ b ∈ bs "/a b", PathChar b) ∧ ch ';' ∈ bs "a;b" := by
  decide +kernel

theorem sanitizeCookieName_clean (n : Bytes) (h : ¬(10#8 ∈ n ∨ 13#8 ∈ n)) :
    sanitizeCookieName n = (n, none) := by
  rw [sanitizeCookieName_eq, if_neg h]
  congr 1
  conv => rhs; rw [← List.map_id n]
  apply List.map_congr_left
  intro b hb
  rw [if_neg]; · rfl
  rintro (rfl | rfl)
  · exact h (.inl hb)
  · exact h (.inr hb)

/-- C17: checking a cookie reports no error exactly if its name has no line break and its value consists of
cookie octets and semicolons, and then leaves it as it is; the name checked first decides the error. -/
theorem C17_check_cookie (c : Cookie) :
    ((10#8 ∈ c.name ∨ 13#8 ∈ c.name) → c.checkAndSanitize = (⟨(sanitizeCookieName c.name).1, c.value⟩, some .badName)) ∧
    (¬(10#8 ∈ c.name ∨ 13#8 ∈ c.name) → c.checkAndSanitize =
      (⟨c.name, (sanitizeCookieValue c.value).1⟩,
        if ∀ b ∈ c.value, CookieOctet b ∨ b = ch ';' then none else some .badValue)) ∧
    (c.checkAndSanitize.2 = none → c.checkAndSanitize.1 = c) := by
  have e := sanitizeCookieName_eq c.name
  have k1 : (10#8 ∈ c.name ∨ 13#8 ∈ c.name) →
      c.checkAndSanitize = (⟨(sanitizeCookieName c.name).1, c.value⟩, some .badName) := by
    intro h
    rw [if_pos h] at e
    simp [Cookie.checkAndSanitize, e]
  have k2 : ¬(10#8 ∈ c.name ∨ 13#8 ∈ c.name) → c.checkAndSanitize =
      (⟨c.name, (sanitizeCookieValue c.value).1⟩,
        if ∀ b ∈ c.value, CookieOctet b ∨ b = ch ';' then none else some .badValue) := by
    intro h
    have e := sanitizeCookieName_clean c.name h
    simp only [Cookie.checkAndSanitize, e, C17_value_exact, ne_eq, not_true_eq_false, if_false]
  refine ⟨k1, k2, ?_⟩
  intro h
  by_cases hn : 10#8 ∈ c.name ∨ 13#8 ∈ c.name
  · rw [k1 hn] at h; simp at h
  · rw [k2 hn] at h ⊢
    have hv : ∀ b ∈ c.value, CookieOctet b ∨ b = ch ';' := by
      by_cases hv : ∀ b ∈ c.value, CookieOctet b ∨ b = ch ';'
      · exact hv
      · rw [if_neg hv] at h; simp at h
    rw [C17_value_exact]
    simp only
    rw [List.filter_eq_self.2 fun b hb => by simpa using hv b hb]

example : Cookie.checkAndSanitize ⟨bs "a", bs "b c"⟩ = (⟨bs "a", bs "bc"⟩, some .badValue) ∧
    Cookie.checkAndSanitize ⟨bs "a\n", bs "b c"⟩ = (⟨bs "a-", bs "b c"⟩, some .badName) := by decide +kernel

/-- C17: checking a Set-Cookie cleans name, value, path and domain in this order and stops at the first
that is in error, which is the error reported; the other attributes are never touched. -/
theorem C17_check_set_cookie (parseIP : Bytes → Bool) (sc : SetCookie) :
    sc.checkAndSanitize parseIP =
      (let n := sanitizeCookieName sc.name
       let v := sanitizeCookieValue sc.value
       let p := sanitizeCookiePath sc.path
       let d := sanitizeCookieDomain parseIP sc.domain
       if n.2.isSome then ({ sc with name := n.1 }, n.2)
       else if v.2.isSome then ({ sc with name := n.1, value := v.1 }, v.2)
       else if p.2.isSome then ({ sc with name := n.1, value := v.1, path := p.1 }, p.2)
       else ({ sc with name := n.1, value := v.1, path := p.1, domain := d.1 }, d.2)) := by
  unfold SetCookie.checkAndSanitize
  dsimp only
  cases (sanitizeCookieName sc.name).2 <;> cases (sanitizeCookieValue sc.value).2 <;>
    cases (sanitizeCookiePath sc.path).2 <;> simp

/-- C17: a Set-Cookie is reported as good exactly if each of the four texts is, and is then changed at
most in the domain. -/
theorem C17_check_set_cookie_ok (parseIP : Bytes → Bool) (sc : SetCookie) :
    ((sc.checkAndSanitize parseIP).2 = none ↔
      (10#8 ∉ sc.name ∧ 13#8 ∉ sc.name) ∧ (∀ b ∈ sc.value, CookieOctet b ∨ b = ch ';') ∧
      (∀ b ∈ sc.path, PathChar b ∨ b = ch ';') ∧ (sanitizeCookieDomain parseIP sc.domain).2 = none) ∧
    ((sc.checkAndSanitize parseIP).2 = none →
      (sc.checkAndSanitize parseIP).1 = { sc with domain := (sanitizeCookieDomain parseIP sc.domain).1 }) := by
  have hc := C17_check_set_cookie parseIP sc
  have hv := C17_value_exact sc.value
  have hp := C17_path_exact sc.path
  have en := sanitizeCookieName_eq sc.name
  by_cases h1 : 10#8 ∈ sc.name ∨ 13#8 ∈ sc.name
  · rw [if_pos h1] at en
    rw [en] at hc
    simp only [Option.isSome_some, if_true] at hc
    rw [hc]
    simp only [reduceCtorEq, false_iff, false_imp_iff, and_true]
    rintro ⟨⟨a, b⟩, _⟩
    rcases h1 with h | h
    · exact a h
    · exact b h
  · have hname := sanitizeCookieName_clean sc.name h1
    rw [hname] at hc
    simp only [Option.isSome_none, Bool.false_eq_true, if_false] at hc
    simp only [not_or] at h1
    by_cases h2 : ∀ b ∈ sc.value, CookieOctet b ∨ b = ch ';'
    · rw [if_pos h2, List.filter_eq_self.2 fun b hb => by simpa using h2 b hb] at hv
      rw [hv] at hc
      simp only [Option.isSome_none, Bool.false_eq_true, if_false] at hc
      by_cases h3 : ∀ b ∈ sc.path, PathChar b ∨ b = ch ';'
      · rw [if_pos h3, List.filter_eq_self.2 fun b hb => by simpa using h3 b hb] at hp
        rw [hp] at hc
        simp only [Option.isSome_none, Bool.false_eq_true, if_false] at hc
        rw [hc]
        exact ⟨⟨fun h => ⟨h1, h2, h3, h⟩, fun h => h.2.2.2⟩, fun _ => rfl⟩
      · rw [if_neg h3] at hp
        rw [hp] at hc
        simp only [Option.isSome_some, if_true] at hc
        rw [hc]
        simp only [reduceCtorEq, false_iff, false_imp_iff, and_true]
        exact fun h => h3 h.2.2.1
    · rw [if_neg h2] at hv
      rw [hv] at hc
      simp only [Option.isSome_some, if_true] at hc
      rw [hc]
      simp only [reduceCtorEq, false_iff, false_imp_iff, and_true]
      exact fun h => h2 h.2.1

example : (SetCookie.checkAndSanitize (fun _ => false)
    { name := bs "a", value := bs "b", path := bs "/", domain := bs ".example.com" }) =
    ({ name := bs "a", value := bs "b", path := bs "/", domain := bs "example.com" }, none) := by decide +kernel

/-! ## C53: cookies in text -/

/-- C53: a cookie written and read back is the same cookie, whatever the target held before. -/
theorem C53_cookie_round_trip (c c0 : Cookie) (hn : c.name ≠ []) (he : ch '=' ∉ c.name) (hv : c.value ≠ []) :
    c0.unmarshal c.marshal = c := by
  have e : c.marshal = c.name ++ ch '=' :: c.value := by simp [Cookie.marshal, bs, ch]
  unfold Cookie.unmarshal
  rw [e, indexByte_append _ _ _ he]
  have h1 : 0 < c.name.length := List.length_pos_iff.mpr hn
  have h2 : 0 < c.value.length := List.length_pos_iff.mpr hv
  simp only
  rw [if_neg (by simp only [List.length_append, List.length_cons]; omega), take_append_len, drop_append_len]

example := C53_cookie_round_trip ⟨bs "id", bs "a=1"⟩ ⟨bs "old", bs "x"⟩ (by decide) (by decide) (by decide)

/-- C249 violated: a cookie with an empty value is not read back: the target keeps what it held. -/
theorem C249_empty_value_lost_violated (c c0 : Cookie) (he : ch '=' ∉ c.name) (hv : c.value = []) :
    c0.unmarshal c.marshal = c0 := by
  have e : c.marshal = c.name ++ ch '=' :: [] := by simp [Cookie.marshal, bs, ch, hv]
  unfold Cookie.unmarshal
  rw [e, indexByte_append _ _ _ he]
  simp

example := C249_empty_value_lost_violated ⟨bs "id", []⟩ ⟨bs "old", bs "x"⟩ (by decide) rfl

theorem cookiesText_cons (c : Cookie) (cs : List Cookie) (h : cs ≠ []) :
    cookiesText (c :: cs) = (c.name ++ ch '=' :: c.value) ++ ch ';' :: (ch ' ' :: cookiesText cs) := by
  cases cs with
  | nil => exact absurd rfl h
  | cons d ds => simp [cookiesText, cookieText, bs, ch]

theorem cookiesText_ne_nil (c : Cookie) (cs : List Cookie) (h : Cookie.Plain c) : cookiesText (c :: cs) ≠ [] := by
  cases cs with
  | nil => simp [cookiesText, cookieText]
  | cons d ds => simp [cookiesText, cookieText]

theorem unmarshalFrom_more (c0 c : Cookie) (rest : Bytes) (h : Cookie.Plain c) :
    c0.unmarshalFrom ((c.name ++ ch '=' :: c.value) ++ ch ';' :: (ch ' ' :: rest)) = some (c, rest) := by
  obtain ⟨h1, h2, h3, h4, h5⟩ := h
  have p1 : 0 < c.name.length := List.length_pos_iff.mpr h1
  have ieq : indexByte ((c.name ++ ch '=' :: c.value) ++ ch ';' :: (ch ' ' :: rest)) (ch '=') = some c.name.length := by
    rw [List.append_assoc, List.cons_append]; exact indexByte_append _ _ _ h2
  have isemi : indexByte ((c.name ++ ch '=' :: c.value) ++ ch ';' :: (ch ' ' :: rest)) (ch ';')
      = some (c.name ++ ch '=' :: c.value).length := by
    apply indexByte_append
    simp only [List.mem_append, List.mem_cons, not_or]
    exact ⟨h3, by decide, h5⟩
  unfold Cookie.unmarshalFrom
  rw [ieq, isemi]
  simp only
  rw [if_neg (by simp; omega)]
  have s1 : slice ((c.name ++ ch '=' :: c.value) ++ ch ';' :: (ch ' ' :: rest)) (c.name.length + 1)
      (c.name ++ ch '=' :: c.value).length = some c.value := by
    unfold slice
    rw [if_pos (by simp), take_append_len, drop_append_len]
  have s2 : sliceFrom ((c.name ++ ch '=' :: c.value) ++ ch ';' :: (ch ' ' :: rest))
      ((c.name ++ ch '=' :: c.value).length + 2) = some rest := by
    unfold sliceFrom
    rw [if_pos (by simp; omega)]
    rw [show (c.name ++ ch '=' :: c.value).length + 2 = ((c.name ++ ch '=' :: c.value).length + 1) + 1 from rfl,
      ← List.drop_drop, drop_append_len]
    rfl
  rw [s1, s2]
  simp

theorem unmarshalFrom_last (c0 c : Cookie) (h : Cookie.Plain c) :
    c0.unmarshalFrom (c.name ++ ch '=' :: c.value) = some (c, []) := by
  obtain ⟨h1, h2, h3, h4, h5⟩ := h
  have p1 : 0 < c.name.length := List.length_pos_iff.mpr h1
  have p2 : 0 < c.value.length := List.length_pos_iff.mpr h4
  unfold Cookie.unmarshalFrom
  have isemi : indexByte (c.name ++ ch '=' :: c.value) (ch ';') = none := by
    rw [indexByte_none_iff]
    simp only [List.mem_append, List.mem_cons, not_or]
    exact ⟨h3, by decide, h5⟩
  rw [indexByte_append _ _ _ h2, isemi]
  simp only
  rw [if_neg (by simp only [List.length_append, List.length_cons]; omega), take_append_len, drop_append_len]

/-- C249, what holds: walking a `Cookie` header line never panics and reports every cookie except the
last one, in order, with its name and value.
Missing: the last cookie, empty values, hostile lines, and adding cookies (refuted:
`C249_empty_value_lost_violated`, `C249_last_cookie_lost_violated`,
`C249_hostile_line_panics_violated` and others). -/
theorem C249_walk_reports_all_but_last_partial (cs : List Cookie) (h : ∀ c ∈ cs, Cookie.Plain c) (n : Nat)
    (hn : cs.length ≤ n + 1) : cookiesLoop (n + 1) (cookiesText cs) = some cs.dropLast := by
  induction cs generalizing n with
  | nil => simp [cookiesLoop, cookiesNext, cookiesText]
  | cons c cs ih =>
    have hc := h c List.mem_cons_self
    cases hcs : cs with
    | nil =>
      have e : cookiesText [c] = c.name ++ ch '=' :: c.value := rfl
      rw [e]
      unfold cookiesLoop cookiesNext
      rw [if_neg (by simp), unmarshalFrom_last _ c hc]
      rfl
    | cons d ds =>
      rw [← hcs]
      have hne : cs ≠ [] := by rw [hcs]; simp
      rw [cookiesText_cons c cs hne]
      have hd := h d (by rw [hcs]; simp)
      have hpos : (cookiesText cs).length > 0 := by
        rw [hcs]; exact List.length_pos_iff.mpr (cookiesText_ne_nil d ds hd)
      unfold cookiesLoop cookiesNext
      rw [if_neg (by simp), unmarshalFrom_more _ c _ hc]
      cases n with
      | zero => simp [hcs] at hn
      | succ m =>
        have := ih (fun c hc => h c (List.mem_cons_of_mem _ hc)) m (by simp at hn ⊢; omega)
        simp only [Option.bind_eq_bind, Option.bind_some, hpos, if_true, this]
        rw [hcs]; rfl

example := C249_walk_reports_all_but_last_partial [⟨bs "a", bs "1"⟩, ⟨bs "b", bs "x=y"⟩] (by unfold Cookie.Plain; decide +kernel) 1 (by decide)

/-- C249 violated: the last cookie of every line is lost; a line with one cookie appears empty. -/
theorem C249_last_cookie_lost_violated (cs : List Cookie) (c : Cookie) (h : ∀ x ∈ cs, Cookie.Plain x)
    (hc : Cookie.Plain c) :
    cookiesLoop ((cs ++ [c]).length + 1) (cookiesText (cs ++ [c])) = some cs ∧ cs ≠ cs ++ [c] := by
  constructor
  · rw [C249_walk_reports_all_but_last_partial (cs ++ [c]) (by
      intro x hx
      rcases List.mem_append.mp hx with hx | hx
      · exact h x hx
      · rw [List.mem_singleton.mp hx]; exact hc) _ (by omega)]
    simp
  · intro e
    have := congrArg List.length e
    simp at this

example := C249_last_cookie_lost_violated [⟨bs "a", bs "1"⟩] ⟨bs "b", bs "x=y"⟩ (by unfold Cookie.Plain; decide +kernel)
  (by unfold Cookie.Plain; decide +kernel)

/-- C249 violated: a line sent by a peer in which a semicolon stands before the first `=`, or which ends
in a semicolon, makes the walk panic. -/
theorem C249_hostile_line_panics_violated (a b c : Bytes) (ha : ch '=' ∉ a) (ha2 : ch ';' ∉ a)
    (hb : ch '=' ∉ b) (hc : c ≠ []) :
    cookiesNext (a ++ ch ';' :: (b ++ ch '=' :: c)) = none ∧
    (a ≠ [] → ch ';' ∉ c → cookiesNext (a ++ ch '=' :: (c ++ [ch ';'])) = none) := by
  have pc : 0 < c.length := List.length_pos_iff.mpr hc
  constructor
  · have ieq : indexByte (a ++ ch ';' :: (b ++ ch '=' :: c)) (ch '=') = some (a.length + 1 + b.length) := by
      have := indexByte_append (a ++ ch ';' :: b) c (ch '=') (by
        simp only [List.mem_append, List.mem_cons, not_or]; exact ⟨ha, by decide, hb⟩)
      rw [List.append_assoc, List.cons_append] at this
      rw [this]; simp; omega
    have isemi := indexByte_append a (b ++ ch '=' :: c) (ch ';') ha2
    unfold cookiesNext Cookie.unmarshalFrom
    rw [if_neg (by simp), ieq]
    simp only
    rw [if_neg (by simp; omega), isemi]
    simp only
    have : slice (a ++ ch ';' :: (b ++ ch '=' :: c)) (a.length + 1 + b.length + 1) a.length = none := by
      unfold slice; rw [if_neg (by omega)]
    rw [this]; rfl
  · intro hane hcs
    have pa : 0 < a.length := List.length_pos_iff.mpr hane
    have ieq := indexByte_append a (c ++ [ch ';']) (ch '=') ha
    have isemi : indexByte (a ++ ch '=' :: (c ++ [ch ';'])) (ch ';') = some (a.length + 1 + c.length) := by
      have := indexByte_append (a ++ ch '=' :: c) [] (ch ';') (by
        simp only [List.mem_append, List.mem_cons, not_or]; exact ⟨ha2, by decide, hcs⟩)
      rw [List.append_assoc, List.cons_append] at this
      rw [this]; simp; omega
    unfold cookiesNext Cookie.unmarshalFrom
    rw [if_neg (by simp), ieq]
    simp only
    rw [if_neg (by simp; omega), isemi]
    simp only
    have : sliceFrom (a ++ ch '=' :: (c ++ [ch ';'])) (a.length + 1 + c.length + 2) = none := by
      unfold sliceFrom; rw [if_neg (by simp; omega)]
    rw [this]
    cases slice (a ++ ch '=' :: (c ++ [ch ';'])) (a.length + 1) (a.length + 1 + c.length) <;> rfl

example := C249_hostile_line_panics_violated (bs "a") (bs "b") (bs "c") (by decide) (by decide) (by decide) (by decide)

theorem addCookieLoop_panics (cookies : List Cookie) (i : Nat) (b : Bytes) :
    addCookieLoop cookies i b = none := by
  fun_induction addCookieLoop cookies i b with
  | case1 => rfl
  | case2 i b c hc b' hi ih => exact ih
  | case3 i b c hc b' hi =>
    have := (List.getElem?_eq_some_iff.mp hc).1
    omega

/-- C249 violated: adding cookies to a header panics for every header and every list of cookies. -/
theorem C249_addCookie_always_panics_violated (h : Header) (cookies : List Cookie) :
    h.addCookie cookies = none := by
  unfold Header.addCookie; rw [addCookieLoop_panics]; rfl

example : Cookie.Plain ⟨bs "a", bs "1"⟩ ∧ Cookie.Plain ⟨bs "b", bs "x=y"⟩ := by
  unfold Cookie.Plain; decide +kernel

/-! ## C54: Set-Cookie text -/

/-- The attributes of a Set-Cookie line. -/
inductive Item where
  | kv (k v : Bytes)
  | flag (k : Bytes)

def Item.text : Item → Bytes
  | .kv k v => k ++ ch '=' :: v
  | .flag k => k

def Item.Wf : Item → Prop
  | .kv k v => ch '=' ∉ k ∧ ch ';' ∉ k ∧ ch ';' ∉ v
  | .flag k => ch '=' ∉ k ∧ ch ';' ∉ k

def Item.isFlag : Item → Bool
  | .kv _ _ => false
  | .flag _ => true

/-- The text of the attributes: each preceded by "; ". -/
def itemsText (l : List Item) : Bytes := l.flatMap fun i => ch ';' :: ch ' ' :: i.text

def Item.step (toLower : Bytes → Bytes) (st : SetCookie × Bytes) : Item → SetCookie × Bytes
  | .kv k v => (st.1.assign (toLower k) v, v)
  | .flag k => (st.1.assign (toLower k) st.2, st.2)

theorem Item.no_semi (i : Item) (h : i.Wf) : ch ';' ∉ i.text := by
  cases i with
  | kv k v =>
    obtain ⟨_, h2, h3⟩ := h
    simp only [Item.text, List.mem_append, List.mem_cons, not_or]
    exact ⟨h2, by decide, h3⟩
  | flag k => exact h.2

theorem attrOf_kv (toLower : Bytes → Bytes) (k v rest val : Bytes) (h : ch '=' ∉ k) :
    attrOf toLower ((k ++ ch '=' :: v) ++ rest) (k ++ ch '=' :: v).length val = some (toLower k, v) := by
  unfold attrOf
  have ieq : indexByte ((k ++ ch '=' :: v) ++ rest) (ch '=') = some k.length := by
    rw [List.append_assoc, List.cons_append]; exact indexByte_append _ _ _ h
  rw [ieq]
  have s1 : sliceTo ((k ++ ch '=' :: v) ++ rest) k.length = some k := by
    unfold sliceTo
    rw [if_pos (by simp), List.append_assoc, take_append_len]
  have s2 : slice ((k ++ ch '=' :: v) ++ rest) (k.length + 1) (k ++ ch '=' :: v).length = some v := by
    unfold slice
    rw [if_pos (by simp), take_append_len, drop_append_len]
  simp only [s1, s2]; rfl

theorem attrOf_flag (toLower : Bytes → Bytes) (k rest val : Bytes) (h : ch '=' ∉ k ++ rest) :
    attrOf toLower (k ++ rest) k.length val = some (toLower k, val) := by
  unfold attrOf
  rw [(indexByte_none_iff _ _).mpr h]
  have s1 : sliceTo (k ++ rest) k.length = some k := by
    unfold sliceTo
    rw [if_pos (by simp), take_append_len]
  simp only [s1]; rfl

theorem itemsText_flags_no_eq (l : List Item) (h : ∀ i ∈ l, i.Wf) (hf : ∀ i ∈ l, i.isFlag = true) :
    ch '=' ∉ itemsText l := by
  intro hm
  obtain ⟨i, hi, hm⟩ := List.mem_flatMap.mp hm
  have hw := h i hi
  have hfl := hf i hi
  cases i with
  | kv k v => simp [Item.isFlag] at hfl
  | flag k =>
    simp only [Item.text, List.mem_cons] at hm
    rcases hm with hm | hm | hm
    · revert hm; decide
    · revert hm; decide
    · exact hw.1 hm

/-- One attribute, followed by more text `rest` (empty or starting with a semicolon). -/
theorem attrOf_item (toLower : Bytes → Bytes) (i : Item) (rest val : Bytes) (h : i.Wf)
    (hf : i.isFlag = true → ch '=' ∉ rest) (sc : SetCookie) :
    (attrOf toLower (i.text ++ rest) i.text.length val).map (fun p => (sc.assign p.1 p.2, p.2)) =
      some (i.step toLower (sc, val)) := by
  cases i with
  | kv k v => rw [Item.text, attrOf_kv toLower k v rest val h.1]; rfl
  | flag k =>
    rw [Item.text, attrOf_flag toLower k rest val (by
      simp only [List.mem_append, not_or]; exact ⟨h.1, hf rfl⟩)]
    rfl

theorem loop_step (toLower : Bytes → Bytes) (sc : SetCookie) (pre : Bytes) (i : Item) (rest val : Bytes)
    (h : i.Wf) (hf : i.isFlag = true → ch '=' ∉ rest) (hr : rest = [] ∨ ∃ r, rest = ch ';' :: r) :
    unmarshalLoop toLower sc (pre ++ ch ';' :: ch ' ' :: (i.text ++ rest)) pre.length val =
      if rest = [] then some (i.step toLower (sc, val)).1
      else unmarshalLoop toLower (i.step toLower (sc, val)).1 (i.text ++ rest) i.text.length
        (i.step toLower (sc, val)).2 := by
  have hd : (pre ++ ch ';' :: ch ' ' :: (i.text ++ rest)).drop (pre.length + 2) = i.text ++ rest := by
    rw [show pre.length + 2 = (pre.length + 1) + 1 from rfl, ← List.drop_drop, drop_append_len]; rfl
  have ha := attrOf_item toLower i rest val h hf sc
  rw [unmarshalLoop.eq_def, dif_pos (by simp)]
  simp only [hd]
  rcases hr with hr | ⟨r, hr⟩
  · subst hr
    have hn : indexByte (i.text ++ []) (ch ';') = none := by
      rw [List.append_nil, indexByte_none_iff]; exact i.no_semi h
    rw [if_pos rfl]
    split
    · rw [List.append_nil] at ha ⊢
      cases hx : attrOf toLower i.text i.text.length val with
      | none => rw [hx] at ha; cases ha
      | some p =>
        rw [hx] at ha
        simp only [Option.map_some, Option.some.injEq] at ha
        rw [← ha]; rfl
    · rename_i hs; rw [hd, hn] at hs; cases hs
  · have hn : indexByte (i.text ++ rest) (ch ';') = some i.text.length := by
      rw [hr]; exact indexByte_append _ _ _ (i.no_semi h)
    have hne : rest ≠ [] := by rw [hr]; simp
    rw [if_neg hne]
    split
    · rename_i hs; rw [hd, hn] at hs; cases hs
    · rename_i semi' hs
      rw [hd, hn] at hs
      cases hs
      cases hx : attrOf toLower (i.text ++ rest) i.text.length val with
      | none => rw [hx] at ha; cases ha
      | some p =>
        rw [hx] at ha
        simp only [Option.map_some, Option.some.injEq] at ha
        rw [← ha]; rfl

theorem itemsText_cases (l : List Item) : itemsText l = [] ∨ ∃ r, itemsText l = ch ';' :: r := by
  cases l with
  | nil => exact .inl rfl
  | cons i l => exact .inr ⟨ch ' ' :: (i.text ++ itemsText l), by simp [itemsText]⟩

theorem loop_items (toLower : Bytes → Bytes) (l : List Item) (h : ∀ i ∈ l, i.Wf)
    (hp : l.Pairwise fun a b => a.isFlag = true → b.isFlag = true) (hne : l ≠ []) :
    ∀ (sc : SetCookie) (pre val : Bytes),
    unmarshalLoop toLower sc (pre ++ itemsText l) pre.length val =
      some (l.foldl (Item.step toLower) (sc, val)).1 := by
  induction l with
  | nil => exact absurd rfl hne
  | cons i l ih =>
    intro sc pre val
    have hw := h i List.mem_cons_self
    have hl : ∀ j ∈ l, j.Wf := fun j hj => h j (List.mem_cons_of_mem _ hj)
    rw [List.pairwise_cons] at hp
    have e : itemsText (i :: l) = ch ';' :: ch ' ' :: (i.text ++ itemsText l) := by simp [itemsText]
    rw [e, loop_step toLower sc pre i (itemsText l) val hw
      (fun hf => itemsText_flags_no_eq l hl (fun j hj => hp.1 j hj hf)) (itemsText_cases l)]
    cases hls : l with
    | nil => rfl
    | cons j l' =>
      rw [← hls, if_neg (by rw [hls]; simp [itemsText])]
      rw [ih hl hp.2 (by rw [hls]; simp)]
      rfl

/-- The valued attributes `Marshal` writes before the boolean ones. -/
def SetCookie.kvItems (sc : SetCookie) : List Item :=
  (if sc.path.length > 0 then [Item.kv (bs "Path") sc.path] else []) ++
  (if sc.domain.length > 0 then [Item.kv (bs "Domain") sc.domain] else []) ++
  (if sc.expires.length > 0 then [Item.kv (bs "Expires") sc.expires] else []) ++
  (if sc.maxAge.length > 0 then [Item.kv (bs "Max-Age") sc.maxAge] else [])

/-- The boolean attributes. -/
def SetCookie.flagItems (sc : SetCookie) : List Item :=
  (if sc.httpOnly then [Item.flag (bs "HttpOnly")] else []) ++
  (if sc.secure then [Item.flag (bs "Secure")] else [])

/-- The SameSite attribute. -/
def SetCookie.sameItems (sc : SetCookie) : List Item :=
  if sc.sameSite.length > 0 then [Item.kv (bs "SameSite") sc.sameSite] else []

/-- The attributes `Marshal` writes. -/
def SetCookie.items (sc : SetCookie) : List Item := sc.kvItems ++ sc.flagItems ++ sc.sameItems

theorem mem_ite {p : Prop} [Decidable p] {i x : Item} (h : i ∈ (if p then [x] else [])) : i = x := by
  split at h
  · exact List.mem_singleton.mp h
  · cases h

theorem kvItems_kv (sc : SetCookie) : ∀ i ∈ sc.kvItems ++ sc.sameItems, i.isFlag = false := by
  intro i hi
  simp only [SetCookie.kvItems, SetCookie.sameItems, List.mem_append] at hi
  rcases hi with (((hi | hi) | hi) | hi) | hi <;> rw [mem_ite hi] <;> rfl

theorem flagItems_flag (sc : SetCookie) : ∀ i ∈ sc.flagItems, i.isFlag = true := by
  intro i hi
  simp only [SetCookie.flagItems, List.mem_append] at hi
  rcases hi with hi | hi <;> rw [mem_ite hi] <;> rfl

theorem ite_append {p : Prop} [Decidable p] (b x y : Bytes) :
    (if p then b ++ x ++ y else b) = b ++ (if p then x ++ y else []) := by split <;> simp

theorem ite_append1 {p : Prop} [Decidable p] (b x : Bytes) :
    (if p then b ++ x else b) = b ++ (if p then x else []) := by split <;> simp

theorem itemsText_append (a b : List Item) : itemsText (a ++ b) = itemsText a ++ itemsText b := by
  simp [itemsText]

theorem itemsText_ite {p : Prop} [Decidable p] (i : Item) :
    itemsText (if p then [i] else []) = if p then ch ';' :: ch ' ' :: i.text else [] := by
  split <;> simp [itemsText]

theorem marshal_eq (sc : SetCookie) :
    sc.marshal = (sc.name ++ ch '=' :: sc.value) ++ itemsText sc.items := by
  unfold SetCookie.marshal SetCookie.items SetCookie.kvItems SetCookie.flagItems SetCookie.sameItems
  simp only [ite_append, ite_append1]
  simp only [itemsText_append, itemsText_ite]
  simp only [List.append_assoc]
  rfl

theorem items_wf (sc : SetCookie) (h : SetCookie.Plain sc) : ∀ i ∈ sc.items, i.Wf := by
  intro i hi
  simp only [SetCookie.items, SetCookie.kvItems, SetCookie.flagItems, SetCookie.sameItems, List.mem_append] at hi
  rcases hi with (((((hi | hi) | hi) | hi) | (hi | hi)) | hi) <;> rw [mem_ite hi]
  · exact ⟨by decide, by decide, h.path⟩
  · exact ⟨by decide, by decide, h.domain⟩
  · exact ⟨by decide, by decide, h.expires⟩
  · exact ⟨by decide, by decide, h.maxAge⟩
  · exact ⟨by decide, by decide⟩
  · exact ⟨by decide, by decide⟩
  · exact ⟨by decide, by decide, h.sameSite⟩

theorem unmarshal_marshal_eq (toLower : Bytes → Bytes) (sc : SetCookie) (h : SetCookie.Plain sc) (sc0 : SetCookie) :
    sc0.unmarshal toLower sc.marshal =
      if sc.items = [] then some { sc0 with name := sc.name, value := sc.value }
      else unmarshalLoop toLower { sc0 with name := sc.name, value := sc.value }
        (sc.value ++ itemsText sc.items) sc.value.length [] := by
  rw [marshal_eq]
  unfold SetCookie.unmarshal
  have ieq : indexByte ((sc.name ++ ch '=' :: sc.value) ++ itemsText sc.items) (ch '=') = some sc.name.length := by
    rw [List.append_assoc, List.cons_append]; exact indexByte_append _ _ _ h.name.2
  have p1 : 0 < sc.name.length := List.length_pos_iff.mpr h.name.1
  have hd : ((sc.name ++ ch '=' :: sc.value) ++ itemsText sc.items).drop (sc.name.length + 1) =
      sc.value ++ itemsText sc.items := by
    rw [List.append_assoc, List.cons_append, drop_append_len]
  have ht : ((sc.name ++ ch '=' :: sc.value) ++ itemsText sc.items).take sc.name.length = sc.name := by
    rw [List.append_assoc, take_append_len]
  rw [ieq]
  simp only [hd, ht]
  rw [if_neg (by omega)]
  by_cases hi : sc.items = []
  · rw [if_pos hi, hi]
    have : indexByte (sc.value ++ itemsText []) (ch ';') = none := by
      rw [indexByte_none_iff]; simpa [itemsText] using h.value
    rw [this]; simp [itemsText]
  · rw [if_neg hi]
    obtain ⟨r, hr⟩ : ∃ r, itemsText sc.items = ch ';' :: r := by
      rcases itemsText_cases sc.items with h | h
      · cases hs : sc.items with
        | nil => exact absurd hs hi
        | cons j l => rw [hs] at h; simp [itemsText] at h
      · exact h
    have : indexByte (sc.value ++ itemsText sc.items) (ch ';') = some sc.value.length := by
      rw [hr]; exact indexByte_append _ _ _ h.value
    rw [this]
    simp only
    rw [take_append_len]

/-- C54, what holds: a Set-Cookie value whose fields contain no semicolon is read back exactly,
provided it does not combine a boolean attribute with SameSite.
Missing: values that combine SameSite with HttpOnly or Secure (refuted:
`C54_samesite_with_boolean_panics_violated`). -/
theorem C54_set_cookie_round_trip_partial (toLower : Bytes → Bytes) (hl : LowersAscii toLower) (sc : SetCookie)
    (h : SetCookie.Plain sc) (hb : sc.sameSite = [] ∨ (sc.httpOnly = false ∧ sc.secure = false)) :
    SetCookie.unmarshal toLower {} sc.marshal = some sc := by
  rw [unmarshal_marshal_eq toLower sc h]
  have l1 : toLower (bs "Path") = bs "path" := by rw [hl _ (by decide +kernel)]; decide +kernel
  have l2 : toLower (bs "Domain") = bs "domain" := by rw [hl _ (by decide +kernel)]; decide +kernel
  have l3 : toLower (bs "Expires") = bs "expires" := by rw [hl _ (by decide +kernel)]; decide +kernel
  have l4 : toLower (bs "Max-Age") = bs "max-age" := by rw [hl _ (by decide +kernel)]; decide +kernel
  have l5 : toLower (bs "HttpOnly") = bs "httponly" := by rw [hl _ (by decide +kernel)]; decide +kernel
  have l6 : toLower (bs "Secure") = bs "secure" := by rw [hl _ (by decide +kernel)]; decide +kernel
  have l7 : toLower (bs "SameSite") = bs "samesite" := by rw [hl _ (by decide +kernel)]; decide +kernel
  have hp : sc.items.Pairwise fun a b => a.isFlag = true → b.isFlag = true := by
    have gen : ∀ a b : List Item, (∀ i ∈ a, i.isFlag = false) → (∀ i ∈ b, i.isFlag = true) →
        (a ++ b).Pairwise fun x y => x.isFlag = true → y.isFlag = true := by
      intro a b ha hb
      rw [List.pairwise_append]
      refine ⟨?_, ?_, fun x _ y hy _ => hb y hy⟩
      · refine List.Pairwise.imp_of_mem (R := fun _ _ => True) ?_ (List.pairwise_of_forall (fun _ _ => trivial))
        intro x y hx _ _ hf; rw [ha x hx] at hf; cases hf
      · refine List.Pairwise.imp_of_mem (R := fun _ _ => True) ?_ (List.pairwise_of_forall (fun _ _ => trivial))
        intro x y _ hy _ _; exact hb y hy
    rcases hb with hb | ⟨hb1, hb2⟩
    · have e : sc.sameItems = [] := by simp [SetCookie.sameItems, hb]
      rw [SetCookie.items, e, List.append_nil]
      exact gen _ _ (fun i hi => kvItems_kv sc i (List.mem_append_left _ hi)) (flagItems_flag sc)
    · have e : sc.flagItems = [] := by simp [SetCookie.flagItems, hb1, hb2]
      rw [SetCookie.items, e, List.append_nil]
      have := gen (sc.kvItems ++ sc.sameItems) [] (kvItems_kv sc) (by simp)
      rwa [List.append_nil] at this
  have fold : (sc.items.foldl (Item.step toLower) (({ name := sc.name, value := sc.value } : SetCookie), [])).1 = sc := by
    have f1 : ∀ (n : Bytes) (st : SetCookie × Bytes) (k : Bytes),
        ((if n.length > 0 then [Item.kv k n] else []).foldl (Item.step toLower) st).1 =
          if n.length > 0 then st.1.assign (toLower k) n else st.1 := by
      intro n st k; split <;> rfl
    have f2 : ∀ (b : Bool) (st : SetCookie × Bytes) (k : Bytes),
        ((if b then [Item.flag k] else []).foldl (Item.step toLower) st).1 =
          if b then st.1.assign (toLower k) st.2 else st.1 := by
      intro b st k; cases b <;> rfl
    unfold SetCookie.items SetCookie.kvItems SetCookie.flagItems SetCookie.sameItems
    simp only [List.foldl_append, f1, f2, l1, l2, l3, l4, l5, l6, l7]
    have a1 : ∀ (s : SetCookie) v, s.assign (bs "path") v = { s with path := v } := by intro s v; rfl
    have a2 : ∀ (s : SetCookie) v, s.assign (bs "domain") v = { s with domain := v } := by intro s v; rfl
    have a3 : ∀ (s : SetCookie) v, s.assign (bs "expires") v = { s with expires := v } := by intro s v; rfl
    have a4 : ∀ (s : SetCookie) v, s.assign (bs "max-age") v = { s with maxAge := v } := by intro s v; rfl
    have a5 : ∀ (s : SetCookie) v, s.assign (bs "httponly") v = { s with httpOnly := true } := by intro s v; rfl
    have a6 : ∀ (s : SetCookie) v, s.assign (bs "secure") v = { s with secure := true } := by intro s v; rfl
    have a7 : ∀ (s : SetCookie) v, s.assign (bs "samesite") v = { s with sameSite := v } := by intro s v; rfl
    simp only [a1, a2, a3, a4, a5, a6, a7]
    cases sc with
    | mk name value path domain expires maxAge secure httpOnly sameSite =>
      cases path <;> cases domain <;> cases expires <;> cases maxAge <;> cases secure <;> cases httpOnly <;>
        cases sameSite <;> rfl
  by_cases hi : sc.items = []
  · rw [if_pos hi]
    rw [hi] at fold
    simpa using fold
  · rw [if_neg hi, loop_items toLower sc.items (items_wf sc h) hp hi, fold]

example := C54_set_cookie_round_trip_partial (fun s => s.map lowerByte) (fun _ _ => rfl)
  { name := bs "id", value := bs "a=1", path := bs "/", maxAge := bs "60", secure := true }
  ⟨by decide, by decide, by decide, by decide, by decide, by decide, by decide⟩ (.inl rfl)

theorem indexByte_ge (a b : Bytes) (c : Byte) (i : Nat) (ha : c ∉ a) (h : indexByte (a ++ b) c = some i) :
    a.length ≤ i := by
  induction a generalizing i with
  | nil => simp
  | cons x a ih =>
    simp only [List.mem_cons, not_or] at ha
    rw [List.cons_append, indexByte, if_neg (Ne.symm ha.1)] at h
    obtain ⟨j, hj, rfl⟩ := Option.map_eq_some_iff.mp h
    have := ih j ha.2 hj
    simp; omega

theorem loop_panic (toLower : Bytes → Bytes) (kvs : List Item) (hw : ∀ i ∈ kvs, i.Wf)
    (hk : ∀ i ∈ kvs, i.isFlag = false) (k r : Bytes) (hk1 : ch '=' ∉ k) (hk2 : ch ';' ∉ k) (hr : ch '=' ∈ r) :
    ∀ (sc : SetCookie) (pre val : Bytes),
    unmarshalLoop toLower sc (pre ++ (itemsText kvs ++ ch ';' :: ch ' ' :: (k ++ ch ';' :: r))) pre.length val = none := by
  induction kvs with
  | nil =>
    intro sc pre val
    rw [show itemsText [] ++ ch ';' :: ch ' ' :: (k ++ ch ';' :: r) = ch ';' :: ch ' ' :: (k ++ ch ';' :: r) from rfl]
    have hd : (pre ++ ch ';' :: ch ' ' :: (k ++ ch ';' :: r)).drop (pre.length + 2) = k ++ ch ';' :: r := by
      rw [show pre.length + 2 = (pre.length + 1) + 1 from rfl, ← List.drop_drop, drop_append_len]; rfl
    have hn := indexByte_append k r (ch ';') hk2
    have ha : attrOf toLower (k ++ ch ';' :: r) k.length val = none := by
      unfold attrOf
      cases hi : indexByte (k ++ ch ';' :: r) (ch '=') with
      | none => rw [indexByte_none_iff] at hi; simp [hr] at hi
      | some i =>
        have := indexByte_ge _ _ _ i hk1 hi
        have e : slice (k ++ ch ';' :: r) (i + 1) k.length = none := by
          unfold slice; rw [if_neg (by omega)]
        simp only [e]
        cases sliceTo (k ++ ch ';' :: r) i <;> rfl
    rw [unmarshalLoop.eq_def, dif_pos (by simp)]
    simp only [hd]
    split
    · rename_i hs; rw [hd, hn] at hs; cases hs
    · rename_i semi' hs
      rw [hd, hn] at hs
      cases hs
      rw [ha]; rfl
  | cons i kvs ih =>
    intro sc pre val
    have hwi := hw i List.mem_cons_self
    have hf := hk i List.mem_cons_self
    have e : itemsText (i :: kvs) ++ ch ';' :: ch ' ' :: (k ++ ch ';' :: r) =
        ch ';' :: ch ' ' :: (i.text ++ (itemsText kvs ++ ch ';' :: ch ' ' :: (k ++ ch ';' :: r))) := by
      simp [itemsText]
    have hst : ∃ x, itemsText kvs ++ ch ';' :: ch ' ' :: (k ++ ch ';' :: r) = ch ';' :: x := by
      rcases itemsText_cases kvs with h | ⟨x, h⟩
      · rw [h]; exact ⟨_, rfl⟩
      · rw [h]; exact ⟨_, rfl⟩
    rw [e, loop_step toLower sc pre i _ val hwi (fun h => by rw [hf] at h; cases h) (.inr hst)]
    rw [if_neg (by simp)]
    exact ih (fun j hj => hw j (List.mem_cons_of_mem _ hj)) (fun j hj => hk j (List.mem_cons_of_mem _ hj)) _ _ _

/-- C54 violated: every Set-Cookie value with SameSite and a boolean attribute is written as a text
that makes the reader panic. -/
theorem C54_samesite_with_boolean_panics_violated (toLower : Bytes → Bytes) (sc : SetCookie)
    (h : SetCookie.Plain sc) (hs : sc.sameSite ≠ []) (hb : sc.httpOnly = true ∨ sc.secure = true) (sc0 : SetCookie) :
    sc0.unmarshal toLower sc.marshal = none := by
  rw [unmarshal_marshal_eq toLower sc h]
  have hsame : sc.sameItems = [Item.kv (bs "SameSite") sc.sameSite] := by
    have : 0 < sc.sameSite.length := List.length_pos_iff.mpr hs
    simp [SetCookie.sameItems, this]
  obtain ⟨k, fs, hfl⟩ : ∃ k fs, sc.flagItems = Item.flag k :: fs := by
    unfold SetCookie.flagItems
    by_cases h1 : sc.httpOnly = true
    · rw [if_pos h1]; exact ⟨_, _, rfl⟩
    · have h2 : sc.secure = true := by rcases hb with h | h; exact absurd h h1; exact h
      rw [if_neg h1, if_pos h2]; exact ⟨_, _, rfl⟩
  have hit : sc.items = sc.kvItems ++ Item.flag k :: (fs ++ [Item.kv (bs "SameSite") sc.sameSite]) := by
    rw [SetCookie.items, hfl, hsame]; simp
  have hkw := items_wf sc h (.flag k) (by rw [hit]; simp)
  obtain ⟨r, hr⟩ : ∃ r, itemsText (fs ++ [Item.kv (bs "SameSite") sc.sameSite]) = ch ';' :: r := by
    rcases itemsText_cases (fs ++ [Item.kv (bs "SameSite") sc.sameSite]) with h | h
    · cases fs <;> simp [itemsText] at h
    · exact h
  have hre : ch '=' ∈ r := by
    have : ch '=' ∈ ch ';' :: r := by
      rw [← hr]
      simp [itemsText, Item.text]
    rcases List.mem_cons.mp this with h | h
    · exact absurd h (by decide)
    · exact h
  rw [if_neg (by rw [hit]; simp)]
  have htext : itemsText sc.items = itemsText sc.kvItems ++ ch ';' :: ch ' ' :: (k ++ ch ';' :: r) := by
    rw [hit, itemsText_append, ← hr]
    simp [itemsText, Item.text]
  rw [htext]
  exact loop_panic toLower sc.kvItems (fun i hi => items_wf sc h i (by rw [hit]; exact List.mem_append_left _ hi))
    (fun i hi => kvItems_kv sc i (List.mem_append_left _ hi)) k r hkw.1 hkw.2 hre _ _ _

example : SetCookie.Plain { name := bs "id", value := bs "a=1", path := bs "/", maxAge := bs "60", secure := true } :=
  ⟨by decide, by decide, by decide, by decide, by decide, by decide, by decide⟩

example : LowersAscii (fun s => s.map lowerByte) := fun _ _ => rfl

/-! ## C55: cookie domains -/

/-- The labels of `cur ++ d` where `cur` is the (dot-free) beginning of the first one. -/
def labelsFrom (cur d : Bytes) : List Bytes :=
  match labels d with
  | l :: ls => (cur ++ l) :: ls
  | [] => [cur]

theorem labels_ne (d : Bytes) : labels d ≠ [] := by
  cases d with
  | nil => simp [labels]
  | cons b r =>
    unfold labels
    split
    · simp
    · split <;> simp

theorem labelsFrom_nil (d : Bytes) : labelsFrom [] d = labels d := by
  unfold labelsFrom
  split
  · rename_i h; rw [h]; rfl
  · rename_i h; exact absurd h (labels_ne d)

theorem labelsFrom_end (cur : Bytes) : labelsFrom cur [] = [cur] := by simp [labelsFrom, labels]

theorem labelsFrom_dot (cur d : Bytes) : labelsFrom cur (ch '.' :: d) = cur :: labels d := by
  simp [labelsFrom, labels]

theorem labelsFrom_char (cur d : Bytes) (b : Byte) (h : b ≠ ch '.') :
    labelsFrom cur (b :: d) = labelsFrom (cur ++ [b]) d := by
  unfold labelsFrom
  rw [labels, if_neg h]
  cases hd : labels d with
  | nil => exact absurd hd (labels_ne d)
  | cons l ls => simp

/-- The last byte of the label read so far (a dot if none). -/
def lastOf (cur : Bytes) : Byte := cur.getLast?.getD (ch '.')

theorem lastOf_append (cur : Bytes) (b : Byte) : lastOf (cur ++ [b]) = b := by simp [lastOf]

/-- The label read so far is fine. -/
def CurOk (cur : Bytes) : Prop := (∀ b ∈ cur, LDH b) ∧ cur.head? ≠ some (ch '-')

theorem domainStep_char : ∀ (b : Byte), ∀ last p, b ≠ ch '.' → domainStep b last p =
    if LDH b ∧ ¬ (b = ch '-' ∧ last = ch '.') then some (p + 1) else none := by
  intro b last p hb
  have key : ∀ b : Byte, b ≠ ch '.' →
      (((ch 'a' ≤ b && b ≤ ch 'z') || (ch 'A' ≤ b && b ≤ ch 'Z')) = true → LDH b ∧ b ≠ ch '-') ∧
      ((ch '0' ≤ b && b ≤ ch '9') = true → LDH b ∧ b ≠ ch '-') ∧
      (((ch 'a' ≤ b && b ≤ ch 'z') || (ch 'A' ≤ b && b ≤ ch 'Z')) = false → (ch '0' ≤ b && b ≤ ch '9') = false →
        b ≠ ch '-' → ¬ LDH b) := by decide +kernel
  obtain ⟨k1, k2, k3⟩ := key b hb
  unfold domainStep
  by_cases h1 : ((ch 'a' ≤ b && b ≤ ch 'z') || (ch 'A' ≤ b && b ≤ ch 'Z')) = true
  · rw [if_pos h1, if_pos ⟨(k1 h1).1, fun h => (k1 h1).2 h.1⟩]
  · rw [if_neg h1]
    by_cases h2 : (ch '0' ≤ b && b ≤ ch '9') = true
    · rw [if_pos h2, if_pos ⟨(k2 h2).1, fun h => (k2 h2).2 h.1⟩]
    · rw [if_neg h2]
      by_cases h3 : b = ch '-'
      · rw [if_pos h3]
        have hl : LDH b := .inr (.inr (.inr h3))
        by_cases h4 : last = ch '.'
        · rw [if_pos h4, if_neg (by simp [h3, h4])]
        · rw [if_neg h4, if_pos ⟨hl, fun h => h4 h.2⟩]
      · rw [if_neg h3, if_neg hb, if_neg]
        intro h
        exact k3 (by simpa using h1) (by simpa using h2) h3 h.1

/-- The loop accepts exactly when all labels are valid. -/
theorem domainLoop_iff (d cur : Bytes) (hc : CurOk cur) (hdot : ch '.' ∉ cur) :
    (∃ last p, domainLoop d (lastOf cur) cur.length = some (last, p) ∧ last ≠ ch '-' ∧ last ≠ ch '.' ∧ p < 64) ↔
      ∀ l ∈ labelsFrom cur d, ValidLabel l := by
  induction d generalizing cur with
  | nil =>
    rw [labelsFrom_end]
    simp only [domainLoop, List.mem_singleton, forall_eq, Option.some.injEq, Prod.mk.injEq]
    have hlast : ∀ x, lastOf cur = x → x ≠ ch '.' → cur.getLast? = some x := by
      intro x hx hne
      unfold lastOf at hx
      cases h : cur.getLast? with
      | none => rw [h] at hx; exact absurd hx.symm hne
      | some y => rw [h] at hx; simp at hx; rw [hx]
    constructor
    · rintro ⟨last, p, ⟨rfl, rfl⟩, h1, h2, h3⟩
      have hl := hlast _ rfl h2
      refine ⟨?_, by omega, hc.1, hc.2, ?_⟩
      · cases cur with
        | nil => simp at hl
        | cons a b => simp
      · rw [hl]; intro h; exact h1 (Option.some.inj h)
    · rintro ⟨v1, v2, _, _, v5⟩
      refine ⟨_, _, ⟨rfl, rfl⟩, ?_, ?_, by omega⟩
      · intro h
        exact v5 (hlast _ h (by decide))
      · intro h
        unfold lastOf at h
        cases h' : cur.getLast? with
        | none =>
          rw [List.getLast?_eq_none_iff] at h'
          rw [h'] at v1; simp at v1
        | some y =>
          rw [h'] at h
          simp at h
          subst h
          exact hdot (List.mem_of_getLast? h')
  | cons b d ih =>
    by_cases hb : b = ch '.'
    · subst hb
      rw [labelsFrom_dot]
      have hstep : domainStep (ch '.') (lastOf cur) cur.length =
          if lastOf cur = ch '.' ∨ lastOf cur = ch '-' then none
          else if cur.length > 63 ∨ cur.length = 0 then none else some 0 := rfl
      have hlast : ∀ x, x ≠ ch '.' → (lastOf cur = x ↔ cur.getLast? = some x) := by
        intro x hne
        unfold lastOf
        cases h : cur.getLast? with
        | none => simp [Ne.symm hne]
        | some y => simp
      have hl0 : lastOf cur = ch '.' ↔ cur = [] := by
        unfold lastOf
        cases h : cur.getLast? with
        | none => rw [List.getLast?_eq_none_iff] at h; simp [h]
        | some y =>
          have hm := List.mem_of_getLast? h
          constructor
          · intro e; simp at e; subst e; exact absurd hm hdot
          · intro e; rw [e] at h; cases h
      have hvalid : ValidLabel cur ↔ ¬ (lastOf cur = ch '.' ∨ lastOf cur = ch '-') ∧ ¬ (cur.length > 63 ∨ cur.length = 0) := by
        unfold ValidLabel
        rw [hl0, hlast _ (by decide)]
        constructor
        · rintro ⟨v1, v2, v3, v4, v5⟩
          refine ⟨?_, by omega⟩
          rintro (h | h)
          · rw [h] at v1; simp at v1
          · exact v5 h
        · rintro ⟨h1, h2⟩
          exact ⟨by omega, by omega, hc.1, hc.2, fun h => h1 (.inr h)⟩
      have ih0 := ih [] ⟨by simp, by simp⟩ (by simp)
      rw [labelsFrom_nil] at ih0
      simp only [List.mem_cons, forall_eq_or_imp, hvalid, ← ih0]
      rw [show domainLoop (ch '.' :: d) (lastOf cur) cur.length =
        (match domainStep (ch '.') (lastOf cur) cur.length with
          | none => none
          | some p => domainLoop d (ch '.') p) from rfl, hstep]
      by_cases h1 : lastOf cur = ch '.' ∨ lastOf cur = ch '-'
      · simp [h1]
      · rw [if_neg h1]
        by_cases h2 : cur.length > 63 ∨ cur.length = 0
        · rw [if_pos h2]
          constructor
          · rintro ⟨_, _, h, _⟩; cases h
          · rintro ⟨⟨_, h⟩, _⟩; exact absurd h2 h
        · rw [if_neg h2]
          simp only [h1, h2, not_false_eq_true, true_and]
          exact Iff.rfl
    · rw [labelsFrom_char cur d b hb]
      unfold domainLoop
      rw [domainStep_char b _ _ hb]
      by_cases hok : LDH b ∧ ¬ (b = ch '-' ∧ lastOf cur = ch '.')
      · rw [if_pos hok]
        have hcur : CurOk (cur ++ [b]) := by
          refine ⟨?_, ?_⟩
          · intro x hx
            rcases List.mem_append.mp hx with hx | hx
            · exact hc.1 x hx
            · rw [List.mem_singleton.mp hx]; exact hok.1
          · cases hcc : cur with
            | nil =>
              intro h
              have hbm : b = ch '-' := by simpa using h
              exact hok.2 ⟨hbm, by rw [hcc]; rfl⟩
            | cons x xs =>
              have := hc.2
              rw [hcc] at this
              simpa using this
        have hdot' : ch '.' ∉ cur ++ [b] := by
          simp only [List.mem_append, List.mem_singleton, not_or]; exact ⟨hdot, Ne.symm hb⟩
        have := ih (cur ++ [b]) hcur hdot'
        rw [lastOf_append, List.length_append] at this
        exact this
      · rw [if_neg hok]
        constructor
        · rintro ⟨_, _, h, _⟩; cases h
        · intro h
          exfalso
          apply hok
          -- the label containing `b` is the head of `labelsFrom`
          have hv : ∃ t, ValidLabel (cur ++ [b] ++ t) := by
            unfold labelsFrom at h
            cases hd : labels d with
            | nil => exact absurd hd (labels_ne d)
            | cons l ls => rw [hd] at h; exact ⟨l, h _ List.mem_cons_self⟩
          obtain ⟨t, _, _, v3, v4, _⟩ := hv
          refine ⟨v3 b (by simp), ?_⟩
          rintro ⟨hbm, hl⟩
          have hcn : cur = [] := by
            cases h' : cur.getLast? with
            | none => exact List.getLast?_eq_none_iff.mp h'
            | some y =>
              unfold lastOf at hl
              rw [h'] at hl
              simp at hl
              subst hl
              exact absurd (List.mem_of_getLast? h') hdot
          rw [hcn, hbm] at v4
          exact v4 (by simp)

/-- What is assumed of `net.ParseIP`: no IP literal ends in a dot or hyphen or has 64 or more bytes. -/
def ParseIPSane (parseIP : Bytes → Bool) : Prop :=
  ∀ d, parseIP d = true → d.length < 64 ∧ d.getLast? ≠ some (ch '-') ∧ d.getLast? ≠ some (ch '.') ∧ d ≠ []

/-- The domain without its optional leading dot. -/
def undot (d : Bytes) : Bytes := if d.head? = some (ch '.') then d.drop 1 else d

theorem domainLoop_last (d : Bytes) (last last' : Byte) (p p' : Nat) (h : domainLoop d last p = some (last', p')) :
    (d = [] ∧ last' = last ∧ p' = p) ∨ (d.getLast? = some last' ∧ p' ≤ p + d.length) := by
  induction d generalizing last p with
  | nil => simp [domainLoop] at h; exact .inl ⟨rfl, h.1.symm, h.2.symm⟩
  | cons b d ih =>
    unfold domainLoop at h
    cases hs : domainStep b last p with
    | none => rw [hs] at h; cases h
    | some q =>
      rw [hs] at h
      have hq : q ≤ p + 1 := by
        unfold domainStep at hs
        repeat' split at hs
        all_goals first | (cases hs; omega) | cases hs
      refine .inr ?_
      rcases ih b q h with ⟨h1, h2, h3⟩ | ⟨h1, h2⟩
      · subst h1; simp [h2]; omega
      · refine ⟨?_, by simp; omega⟩
        cases d with
        | nil => simp at h1
        | cons x xs => simpa using h1

/-- C55: the domain check accepts exactly the non-empty texts of at most 255 bytes that are host names
(optionally with a leading dot, which is dropped) and then returns the name; everything else is
reported as an error and dropped. -/
theorem C55_domain_exact (parseIP : Bytes → Bool) (hip : ParseIPSane parseIP) (d : Bytes) :
    sanitizeCookieDomain parseIP d =
      if d ≠ [] ∧ d.length ≤ 255 ∧ (∀ l ∈ labels (undot d), ValidLabel l) then (undot d, none)
      else ([], some .badDomain) := by
  unfold sanitizeCookieDomain
  by_cases hlen : d.length = 0 ∨ d.length > 255
  · rw [if_pos hlen, if_neg]
    rintro ⟨h1, h2, _⟩
    have := List.length_pos_iff.mpr h1
    omega
  · rw [if_neg hlen]
    have hne : d ≠ [] := by rintro rfl; simp at hlen
    have hle : d.length ≤ 255 := by omega
    have hund : stripDot d = undot d := by
      cases d with
      | nil => rfl
      | cons b r => by_cases hb : b = ch '.' <;> simp [undot, stripDot, hb]
    rw [hund]
    simp only
    have hiff := domainLoop_iff (undot d) [] ⟨by simp, by simp⟩ (by simp)
    rw [labelsFrom_nil] at hiff
    have hl0 : lastOf [] = ch '.' := rfl
    rw [hl0] at hiff
    simp only [List.length_nil] at hiff
    cases hloop : domainLoop (undot d) (ch '.') 0 with
    | none =>
      rw [hloop] at hiff
      simp only
      rw [if_neg]
      rintro ⟨_, _, h⟩
      obtain ⟨_, _, h, _⟩ := hiff.mpr h
      cases h
    | some st =>
      obtain ⟨last, p⟩ := st
      rw [hloop] at hiff
      simp only
      by_cases hgood : last ≠ ch '-' ∧ last ≠ ch '.' ∧ p < 64
      · rw [if_pos hgood, if_pos ⟨hne, hle, hiff.mp ⟨last, p, rfl, hgood.1, hgood.2.1, hgood.2.2⟩⟩]
      · rw [if_neg hgood]
        have hnv : ¬ ∀ l ∈ labels (undot d), ValidLabel l := by
          intro h
          obtain ⟨l', p', e, h1, h2, h3⟩ := hiff.mpr h
          cases e
          exact hgood ⟨h1, h2, h3⟩
        have hnip : parseIP (undot d) = false := by
          cases hp : parseIP (undot d) with
          | false => rfl
          | true =>
            exfalso
            obtain ⟨i1, i2, i3, i4⟩ := hip _ hp
            rcases domainLoop_last _ _ _ _ _ hloop with ⟨h1, _⟩ | ⟨h1, h2⟩
            · exact i4 h1
            · apply hgood
              rw [h1] at i2 i3
              exact ⟨fun h => i2 (by rw [h]), fun h => i3 (by rw [h]), by omega⟩
        have hno : ¬ (d ≠ [] ∧ d.length ≤ 255 ∧ ∀ l ∈ labels (undot d), ValidLabel l) := fun h => hnv h.2.2
        rw [hnip, if_neg hno]
        simp only [Bool.false_eq_true, if_false]

example : (∀ l ∈ labels (undot (bs ".a-b.example")), ValidLabel l) ∧ labels (bs "a.bc") = [bs "a", bs "bc"] ∧
    ¬ (∀ l ∈ labels (bs "a..b"), ValidLabel l) ∧ ¬ (∀ l ∈ labels (bs "-a.b"), ValidLabel l) := by
  decide +kernel

example : ParseIPSane (fun d => d == bs "127.0.0.1") := by
  intro d h
  simp at h
  subst h
  decide +kernel

/-! ## C56: lists of codings -/

/-- C56 violated: reading the last coding of a list with one coding (no comma) loses its first byte. -/
theorem C56_single_coding_truncated_violated (b : Byte) (r : Bytes) (h : ch ',' ∉ b :: r) :
    codingsLast (b :: r) = some (r, true, []) ∧ r ≠ b :: r := by
  constructor
  · unfold codingsLast
    rw [if_neg (by simp), (lastIndexByte_none_iff _ _).mpr h]
    simp [sliceFrom]
  · intro e
    have := congrArg List.length e
    simp at this

example := C56_single_coding_truncated_violated (ch 'g') (bs "zip") (by decide)

/-- C56 violated: taking the last coding off a longer list also removes the byte before the comma. -/
theorem C56_rest_truncated_violated (a c : Bytes) (b : Byte) (h : ch ',' ∉ c) :
    codingsLast (a ++ [b] ++ ch ',' :: c) = some (c, true, a) := by
  unfold codingsLast
  rw [if_neg (by simp), lastIndexByte_append _ _ _ h]
  simp only [List.length_append, List.length_singleton]
  rw [if_neg (by omega)]
  have s1 : sliceTo (a ++ [b] ++ ch ',' :: c) (a.length + 1 - 1) = some a := by
    unfold sliceTo
    rw [if_pos (by simp), Nat.add_sub_cancel, List.append_assoc, take_append_len]
  have s2 : sliceFrom (a ++ [b] ++ ch ',' :: c) (a.length + 1 + 1) = some c := by
    unfold sliceFrom
    rw [if_pos (by simp; omega)]
    have := drop_append_len (a ++ [b]) c (ch ',')
    rw [List.length_append, List.length_singleton] at this
    rw [this]
  rw [s1, s2]; rfl

example := C56_rest_truncated_violated (bs "gzi") (bs " br") (ch 'p') (by decide)

/-- C56 violated: a list that starts with its only comma panics. -/
theorem C56_leading_comma_panics_violated (c : Bytes) (h : ch ',' ∉ c) :
    codingsLast (ch ',' :: c) = none := by
  unfold codingsLast
  have := lastIndexByte_append [] c (ch ',') h
  rw [List.nil_append] at this
  rw [if_neg (by simp), this]
  simp

example := C56_leading_comma_panics_violated (bs "gzip") (by decide)

/-- C56, what holds: the reported coding is right whenever the list has a comma (not in front).
Missing: a list of one coding, the rest behind the coding taken off, and a leading comma
(refuted: `C56_single_coding_truncated_violated`, `C56_rest_truncated_violated`,
`C56_leading_comma_panics_violated`). -/
theorem C56_last_coding_partial (a c : Bytes) (ha : a ≠ []) (h : ch ',' ∉ c) :
    ∃ left, codingsLast (a ++ ch ',' :: c) = some (c, true, left) := by
  obtain ⟨x, b, rfl⟩ : ∃ x b, a = x ++ [b] := ⟨a.dropLast, a.getLast ha, (List.dropLast_concat_getLast ha).symm⟩
  exact ⟨x, C56_rest_truncated_violated x c b h⟩

example := C56_last_coding_partial (bs "gzip") (bs " br") (by decide) (by decide)

/-- C56, what holds: a list is said to have no coding exactly when it is empty, and then it stays as it is.
Missing: as for `C56_last_coding_partial` (refuted there). -/
theorem C56_no_coding_partial (ce c left : Bytes) : codingsLast ce = some (c, false, left) ↔ ce = [] ∧ c = [] ∧ left = [] := by
  unfold codingsLast
  cases ce with
  | nil => simp [eq_comm]
  | cons b r =>
    rw [if_neg (by simp)]
    constructor
    · intro h
      split at h
      · simp [sliceFrom] at h
      · split at h
        · cases h
        · simp only [Option.bind_eq_bind, Option.bind_eq_some_iff] at h
          obtain ⟨l, _, e, _, h⟩ := h
          cases h
    · rintro ⟨h, _⟩; cases h

example : codingsLast [] = some ([], false, []) ∧ codingsLast (bs "a, br") = some (bs " br", true, []) := by decide +kernel

/-! ## C57: legacy Pragma header -/

/-- C57: `Pragma: no-cache` is treated as `Cache-Control: no-cache` exactly when no Cache-Control value
is given; all other names, and everything in all other cases, stay as they are. -/
theorem C57_pragma_rule (h : Header) :
    (h.get (bs "Pragma") = bs "no-cache" → h.get (bs "Cache-Control") = [] →
      (∀ p ∈ h.lines, p.1 ≠ bs "Cache-Control") →
      h.fixPragmaCacheControl.get (bs "Cache-Control") = bs "no-cache") ∧
    (h.get (bs "Pragma") ≠ bs "no-cache" ∨ h.get (bs "Cache-Control") ≠ [] → h.fixPragmaCacheControl = h) ∧
    (∀ k, k ≠ bs "Cache-Control" → h.fixPragmaCacheControl.get k = h.get k) := by
  have add_get : ∀ k, k ≠ bs "Cache-Control" → (h.add (bs "Cache-Control") (bs "no-cache")).get k = h.get k := by
    intro k hk
    rw [get_eq, get_eq, firstValue, Header.add, valuesOf_append]
    have : valuesOf [(bs "Cache-Control", bs "no-cache")] k = [] := by simp [valuesOf, Ne.symm hk]
    rw [this, List.append_nil]; rfl
  refine ⟨?_, ?_, ?_⟩
  · intro h1 h2 h3
    unfold Header.fixPragmaCacheControl
    rw [if_pos h1, if_pos h2, get_eq, firstValue, Header.add, valuesOf_append]
    have : valuesOf h.lines (bs "Cache-Control") = [] := by
      simp only [valuesOf, List.filterMap_eq_nil_iff]
      intro p hp; rw [if_neg (h3 p hp)]
    rw [this]; simp [valuesOf]
  · rintro (h1 | h1)
    · unfold Header.fixPragmaCacheControl; rw [if_neg h1]
    · unfold Header.fixPragmaCacheControl
      rw [if_neg h1, ite_self]
  · intro k hk
    unfold Header.fixPragmaCacheControl
    split
    · split
      · exact add_get k hk
      · rfl
    · rfl

example : (Header.init.add (bs "Pragma") (bs "no-cache")).get (bs "Pragma") = bs "no-cache" ∧
    (Header.init.add (bs "Pragma") (bs "no-cache")).get (bs "Cache-Control") = [] ∧
    (Header.init.add (bs "Pragma") (bs "no-cache")).fixPragmaCacheControl.get (bs "Cache-Control") = bs "no-cache" := by
  decide +kernel

end Memar.Http
