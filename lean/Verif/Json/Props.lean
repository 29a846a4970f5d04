import Verif.Json.Lemmas
import Verif.Math.Props

/-!
# JSON: what the encoder writes is what the decoder reads (C47), and what the decoder does on
# arbitrary text (C86)
-/

namespace Memar.Json
open Memar Decimal

/-- The number parser used by the decoders: it reads decimal notation and refuses the empty text. -/
structure ReadsDecimal {w} (p : Bytes → Option (BitVec w)) : Prop where
  digits : ∀ v : BitVec w, p (decDigits v.toNat) = some v
  empty : p [] = none

/-- The repository's own `U8.FromString_Base10` is such a parser. -/
def ownParser8 (s : Bytes) : Option U8 :=
  match Math.fromString8 0 s with
  | (v, none) => some v
  | _ => none

theorem ownParser8_reads : ReadsDecimal ownParser8 where
  digits v := by
    have := Math.C08_print_parse.1 0 v
    unfold ownParser8
    unfold Math.toString at this
    rw [this]
  empty := by decide

theorem findEndToken_at (d : Decoder) (a : Bytes) (t : Byte) (rest : Bytes) (hb : d.buf = a ++ t :: rest)
    (ha : ∀ c ∈ a, ¬ EndTok c) (ht : EndTok t) :
    d.findEndToken = { buf := t :: rest, token := t, lastItem := a } := by
  unfold Decoder.findEndToken
  rw [hb, findEnd_append a t rest ha ht]

/-! ## C47: numbers -/

/-- C47. After any text without digits (`pre`), a number written by the encoder and followed by an
end token is decoded to the number; the decoder stands at the end token. -/
theorem C47_uint {w} (p : Bytes → Option (BitVec w)) (hp : ReadsDecimal p) (tok : Byte) (last pre : Bytes)
    (v : BitVec w) (t : Byte) (rest : Bytes) (hpre : ∀ c ∈ pre, ¬ IsDigit c) (ht : EndTok t) :
    Decoder.decodeUInt p { buf := encodeUInt pre v ++ t :: rest, token := tok, lastItem := last } =
      ({ buf := t :: rest, token := t, lastItem := decDigits v.toNat }, .ok v) := by
  unfold Decoder.decodeUInt Decoder.trimToDigit Decoder.minUInt encodeUInt
  rw [List.append_assoc]
  simp only [trim_digits pre v.toNat (t :: rest) hpre]
  rw [findEndToken_at _ (decDigits v.toNat) t rest rfl (decDigits_noEnd _) ht]
  simp only [hp.digits]

example : Decoder.decodeUInt ownParser8 (.init (bs " 200,\"b\":1}")) =
    ({ buf := bs ",\"b\":1}", token := ch ',', lastItem := bs "200" }, .ok 200#8) := by decide +kernel

/-- C47, minified decoder: the same from the first digit on. -/
theorem C47_uint_minified {w} (p : Bytes → Option (BitVec w)) (hp : ReadsDecimal p) (tok : Byte) (last : Bytes)
    (v : BitVec w) (t : Byte) (rest : Bytes) (ht : EndTok t) :
    Decoder.minUInt p { buf := encodeUInt [] v ++ t :: rest, token := tok, lastItem := last } =
      ({ buf := t :: rest, token := t, lastItem := decDigits v.toNat }, .ok v) := by
  unfold Decoder.minUInt encodeUInt
  rw [findEndToken_at _ (decDigits v.toNat) t rest (by simp) (decDigits_noEnd _) ht]
  simp only [hp.digits]

example := C47_uint_minified ownParser8 ownParser8_reads 0 [] 200#8 (ch ',') (bs "\"b\":1}") (by decide)

/-! ## C47: booleans -/

/-- C47. After any spaces, a boolean written by the encoder and followed by one more byte is
decoded; the decoder stands after that byte. -/
theorem C47_bool (tok : Byte) (last : Bytes) (n : Nat) (b : Bool) (t : Byte) (rest : Bytes) :
    Decoder.decodeBool { buf := encodeBoolean (List.replicate n (ch ' ')) b ++ t :: rest,
                         token := tok, lastItem := last } =
      some ({ buf := rest, token := tok, lastItem := last }, b) := by
  unfold Decoder.decodeBool Decoder.trimSpaces encodeBoolean
  have hs : ∀ x ∈ List.replicate n (ch ' '), (fun c : Byte => decide (c ≠ ch ' ')) x = false := by
    intro x hx; rw [List.eq_of_mem_replicate hx]; decide
  cases b
  · have : (if (false : Bool) = true then List.replicate n (ch ' ') ++ bs "true"
        else List.replicate n (ch ' ') ++ bs "false") ++ t :: rest =
        List.replicate n (ch ' ') ++ ch 'f' :: (bs "alse" ++ t :: rest) := by
      rw [if_neg (by decide), List.append_assoc]; rfl
    rw [this]
    simp only [dropTo_append _ _ _ _ hs (show (decide (ch 'f' ≠ ch ' ')) = true by decide)]
    have e : bs "alse" ++ t :: rest = ch 'a' :: ch 'l' :: ch 's' :: ch 'e' :: t :: rest := rfl
    rw [e]
    simp [Decoder.minBool, Decoder.offset, sliceFrom, show ch 'f' ≠ ch 't' by decide]
  · have : (if (true : Bool) = true then List.replicate n (ch ' ') ++ bs "true"
        else List.replicate n (ch ' ') ++ bs "false") ++ t :: rest =
        List.replicate n (ch ' ') ++ ch 't' :: (bs "rue" ++ t :: rest) := by
      rw [if_pos rfl, List.append_assoc]; rfl
    rw [this]
    simp only [dropTo_append _ _ _ _ hs (show (decide (ch 't' ≠ ch ' ')) = true by decide)]
    have e : bs "rue" ++ t :: rest = ch 'r' :: ch 'u' :: ch 'e' :: t :: rest := rfl
    rw [e]
    simp [Decoder.minBool, Decoder.offset, sliceFrom]

example : Decoder.decodeBool (.init (bs "  false,\"x\"")) = some ({ buf := bs "\"x\"" }, false) := by
  decide +kernel

/-- C47, minified decoder. -/
theorem C47_bool_minified (tok : Byte) (last : Bytes) (b : Bool) (t : Byte) (rest : Bytes) :
    Decoder.minBool { buf := encodeBoolean [] b ++ t :: rest, token := tok, lastItem := last } =
      some ({ buf := rest, token := tok, lastItem := last }, b) := by
  cases b <;> simp [encodeBoolean, bs, ch, Decoder.minBool, Decoder.offset, sliceFrom]

/-! ## C47: strings and keys -/

theorem trimToString_at (tok : Byte) (last pre rest : Bytes) (hpre : ch '"' ∉ pre) :
    Decoder.trimToStringStart { buf := pre ++ ch '"' :: rest, token := tok, lastItem := last } =
      { buf := rest, token := tok, lastItem := last } := by
  unfold Decoder.trimToStringStart
  rw [show ({ buf := pre ++ ch '"' :: rest, token := tok, lastItem := last } : Decoder).buf =
    pre ++ ch '"' :: rest from rfl, indexByte_append pre rest _ hpre]
  simp only [Decoder.mk.injEq, and_true]
  rw [List.append_cons, List.drop_left']
  simp

theorem take_quote (s rest : Bytes) : (s ++ ch '"' :: rest).take s.length = s := by
  rw [List.take_left']; rfl

theorem drop_quote (s rest : Bytes) (c : Byte) : (s ++ c :: rest).drop (s.length + 1) = rest := by
  rw [List.append_cons, List.drop_left']; simp

/-- The body of the string decoders on a quoted text. -/
theorem stringBody_at (tok : Byte) (last pre s rest : Bytes) (hpre : ch '"' ∉ pre) (hs : ch '"' ∉ s) :
    Decoder.stringBody { buf := pre ++ ch '"' :: (s ++ ch '"' :: rest), token := tok, lastItem := last } =
      ({ buf := rest, token := tok, lastItem := last }, .ok s) := by
  unfold Decoder.stringBody
  rw [trimToString_at tok last pre _ hpre]
  simp only [indexByte_append s rest _ hs, take_quote, drop_quote]

/-- Text that may stand before a string value: no quote, no comma, no `n`. -/
def Plain (pre : Bytes) : Prop := ∀ c ∈ pre, c ≠ ch '"' ∧ c ≠ ch ',' ∧ c ≠ ch 'n'

theorem checkNull_plain (pre rest : Bytes) (h : Plain pre) :
    checkNull false (pre ++ ch '"' :: rest) = some false := by
  induction pre with
  | nil => rw [List.nil_append, checkNull, if_neg (by decide), if_pos rfl]
  | cons c r ih =>
    have hc := h c (by simp)
    rw [List.cons_append, checkNull, if_neg hc.2.2, if_neg hc.1, if_neg hc.2.1]
    exact ih fun x hx => h x (by simp [hx])

/-- C47. A string without a quote character, written by the encoder, is decoded to itself by both
decoders; they stand after the closing quote (at the comma the encoder wrote). -/
theorem C47_string (tok : Byte) (last pre s rest : Bytes) (hpre : Plain pre) (hs : ch '"' ∉ s) :
    Decoder.decodeString { buf := encodeStringValue pre s ++ rest, token := tok, lastItem := last } =
      some ({ buf := ch ',' :: rest, token := tok, lastItem := last }, .ok s) ∧
    Decoder.unsafeString { buf := encodeStringValue pre s ++ rest, token := tok, lastItem := last } =
      some ({ buf := ch ',' :: rest, token := tok, lastItem := last }, .ok s) := by
  have e : encodeStringValue pre s ++ rest = pre ++ ch '"' :: (s ++ ch '"' :: (ch ',' :: rest)) := by
    unfold encodeStringValue
    rw [show bs "\"," = [ch '"', ch ','] from rfl]
    simp
  have hq : ch '"' ∉ pre := fun h => (hpre _ h).1 rfl
  have hn := checkNull_plain pre (s ++ ch '"' :: (ch ',' :: rest)) hpre
  rw [e]
  unfold Decoder.decodeString Decoder.unsafeString Decoder.checkNullValue
  simp only [hn, stringBody_at tok last pre s (ch ',' :: rest) hq hs, and_self]

example : Decoder.decodeString (.init (bs " \"na,}me\",\"b\":1}")) =
    some ({ buf := bs ",\"b\":1}" }, .ok (bs "na,}me")) := by decide +kernel

/-- C47, minified decoders: from after the opening quote and from the opening quote. -/
theorem C47_string_minified (tok : Byte) (last s rest : Bytes) (hs : ch '"' ∉ s) :
    Decoder.minString { buf := (encodeStringValue [] s).drop 1 ++ rest, token := tok, lastItem := last } =
      some ({ buf := ch ',' :: rest, token := tok, lastItem := last }, s) ∧
    Decoder.unsafeMinString { buf := encodeStringValue [] s ++ rest, token := tok, lastItem := last } =
      some ({ buf := ch ',' :: rest, token := tok, lastItem := last }, .ok s) := by
  have e : encodeStringValue [] s = ch '"' :: (s ++ ch '"' :: [ch ',']) := by
    unfold encodeStringValue
    rw [show bs "\"," = [ch '"', ch ','] from rfl]
    simp
  rw [e]
  have e2 : (s ++ ch '"' :: [ch ',']) ++ rest = s ++ ch '"' :: (ch ',' :: rest) := by simp
  constructor
  · unfold Decoder.minString
    simp only [List.drop_succ_cons, List.drop_zero, e2, indexByte_append s _ _ hs, take_quote, drop_quote]
  · unfold Decoder.unsafeMinString Decoder.offset sliceFrom
    simp only [List.cons_append, e2, List.length_cons, Nat.le_add_left, if_true, Option.map_some,
      List.drop_succ_cons, List.drop_zero, indexByte_append s _ _ hs, take_quote, drop_quote]

example := C47_string_minified 0 [] (bs "na,}me") (bs "\"b\":1}") (by decide)

/-- C47. A key without a quote character is decoded after any text without quotes, and the decoder
stands after the colon. -/
theorem C47_key (tok : Byte) (last pre k rest : Bytes) (hpre : ch '"' ∉ pre) (hk : ch '"' ∉ k) :
    Decoder.decodeKey { buf := encodeKey pre k ++ rest, token := tok, lastItem := last } =
      ({ buf := rest, token := tok, lastItem := last }, k) := by
  have e : encodeKey pre k ++ rest = pre ++ ch '"' :: (k ++ ch '"' :: (ch ':' :: rest)) := by
    unfold encodeKey
    rw [show bs "\":" = [ch '"', ch ':'] from rfl]
    simp
  rw [e]
  unfold Decoder.decodeKey
  rw [trimToString_at tok last pre _ hpre]
  simp only [indexByte_append k _ _ hk, take_quote, drop_quote]
  rw [show indexByte (ch ':' :: rest) (ch ':') = some 0 by simp [indexByte]]
  simp

example : Decoder.decodeKey (.init (bs "{ \"k:1\":true}")) = ({ buf := bs "true}" }, bs "k:1") := by
  decide +kernel

/-- C47, minified decoder: one byte (`{` or `,`) stands before the opening quote. -/
theorem C47_key_minified (tok : Byte) (last k rest : Bytes) (c : Byte) (hk : ch '"' ∉ k) :
    Decoder.minKey { buf := encodeKey [c] k ++ rest, token := tok, lastItem := last } =
      some ({ buf := rest, token := tok, lastItem := last }, k) := by
  have e : encodeKey [c] k ++ rest = c :: ch '"' :: (k ++ ch '"' :: (ch ':' :: rest)) := by
    unfold encodeKey
    rw [show bs "\":" = [ch '"', ch ':'] from rfl]
    simp
  rw [e]
  have h1 : Decoder.offset { buf := c :: ch '"' :: (k ++ ch '"' :: (ch ':' :: rest)), token := tok, lastItem := last } 2
      = some { buf := k ++ ch '"' :: (ch ':' :: rest), token := tok, lastItem := last } := by
    simp [Decoder.offset, sliceFrom]
  have h2 : Decoder.offset { buf := k ++ ch '"' :: (ch ':' :: rest), token := tok, lastItem := last } (k.length + 2)
      = some { buf := rest, token := tok, lastItem := last } := by
    have : k ++ ch '"' :: (ch ':' :: rest) = (k ++ [ch '"', ch ':']) ++ rest := by simp
    unfold Decoder.offset sliceFrom
    rw [if_pos (by simp)]
    simp only [Option.map_some, this]
    rw [List.drop_left' (by simp)]
  unfold Decoder.minKey
  rw [h1]
  simp only [Option.bind_eq_bind, Option.bind_some, indexByte_append k _ _ hk, h2, take_quote]

example := C47_key_minified 0 [] (bs "k:1") (bs "true}") (ch '{') (by decide)

/-! ## C47: slices of numbers -/

theorem not_rbracket_zero : (0 : Byte) ≠ ch ']' := by decide

theorem sliceLoop_run {w} (p : Bytes → Option (BitVec w)) (hp : ReadsDecimal p) :
    ∀ (r : List (BitVec w)) (v : BitVec w) (n : Nat) (acc : List (BitVec w)) (tok : Byte) (last pre rest : Bytes),
      tok ≠ ch ']' → (∀ c ∈ pre, ¬ IsDigit c) → r.length + 2 ≤ n →
      sliceLoop p n { buf := pre ++ (commaList (v :: r) ++ ch ']' :: rest), token := tok, lastItem := last } acc =
        .done { buf := ch ']' :: rest, token := 0, lastItem := [] } (.ok (acc ++ v :: r)) := by
  intro r
  induction r with
  | nil =>
    intro v n acc tok last pre rest ht hpre hn
    obtain ⟨m, rfl⟩ : ∃ m, n = m + 2 := ⟨n - 2, by simp at hn; omega⟩
    have h := C47_uint p hp tok last pre v (ch ']') rest hpre (Or.inr (Or.inl rfl))
    rw [encodeUInt, List.append_assoc] at h
    rw [sliceLoop, if_neg ht]
    rw [show commaList [v] = decDigits v.toNat from rfl, h]
    simp only
    rw [findEndToken_at _ [] (ch ']') rest rfl (by simp) (Or.inr (Or.inl rfl)), sliceLoop, if_pos rfl]
  | cons u r ih =>
    intro v n acc tok last pre rest ht hpre hn
    obtain ⟨m, rfl⟩ : ∃ m, n = m + 1 := ⟨n - 1, by simp at hn; omega⟩
    have h := C47_uint p hp tok last pre v (ch ',') (commaList (u :: r) ++ ch ']' :: rest) hpre (Or.inl rfl)
    rw [encodeUInt, List.append_assoc] at h
    rw [sliceLoop, if_neg ht, commaList_cons, List.append_assoc, List.cons_append, h]
    simp only
    rw [findEndToken_at _ [] (ch ',') _ rfl (by simp) (Or.inl rfl)]
    have := ih u m (acc ++ [v]) (ch ',') [] [ch ','] rest (by decide)
      (by intro c hc; simp at hc; subst hc; decide) (by simp at hn ⊢; omega)
    rw [show ch ',' :: (commaList (u :: r) ++ ch ']' :: rest) = [ch ','] ++ (commaList (u :: r) ++ ch ']' :: rest) from rfl,
      this]
    simp

/-- C47. A non-empty list of numbers written by the encoder and closed with `]` is decoded to the
list, whatever stood in front of it without a digit; the decoder stands at the `]`. Two rounds more
than the number of elements suffice. -/
theorem C47_slice {w} (p : Bytes → Option (BitVec w)) (hp : ReadsDecimal p) (s : List (BitVec w)) (hs : s ≠ [])
    (tok : Byte) (last pre rest enc : Bytes) (htok : tok ≠ ch ']') (hpre : ∀ c ∈ pre, ¬ IsDigit c)
    (henc : encodeSlice pre s = some enc) (rounds : Nat) (hr : s.length + 1 ≤ rounds) :
    Decoder.decodeSlice p rounds { buf := enc ++ ch ']' :: rest, token := tok, lastItem := last } =
      .done { buf := ch ']' :: rest, token := 0, lastItem := [] } (.ok s) := by
  cases s with
  | nil => exact absurd rfl hs
  | cons v r =>
    rw [encodeSlice_eq] at henc
    cases henc
    unfold Decoder.decodeSlice
    rw [List.append_assoc]
    exact sliceLoop_run p hp r v rounds [] tok last pre rest htok hpre (by simp at hr; omega)

example : encodeSlice (bs "[") [1#8, 20#8, 255#8] = some (bs "[1,20,255") ∧
    Decoder.decodeSlice ownParser8 4 (.init (bs "[1,20,255],\"b\":3}")) =
      .done { buf := bs "],\"b\":3}" } (.ok [1#8, 20#8, 255#8]) := by decide +kernel

theorem minSliceLoop_run {w} (p : Bytes → Option (BitVec w)) (hp : ReadsDecimal p) :
    ∀ (r : List (BitVec w)) (v : BitVec w) (n : Nat) (acc : List (BitVec w)) (tok : Byte) (last rest : Bytes),
      tok ≠ ch ']' → r.length + 2 ≤ n →
      ∃ l, minSliceLoop p n { buf := commaList (v :: r) ++ ch ']' :: rest, token := tok, lastItem := last } acc =
        .done { buf := rest, token := 0, lastItem := l } (.ok (acc ++ v :: r)) := by
  intro r
  induction r with
  | nil =>
    intro v n acc tok last rest ht hn
    obtain ⟨m, rfl⟩ : ∃ m, n = m + 2 := ⟨n - 2, by simp at hn; omega⟩
    have h := C47_uint_minified p hp tok last v (ch ']') rest (Or.inr (Or.inl rfl))
    rw [encodeUInt, List.nil_append] at h
    refine ⟨decDigits v.toNat, ?_⟩
    rw [minSliceLoop, if_neg ht]
    rw [show commaList [v] = decDigits v.toNat from rfl, h]
    simp only
    rw [show Decoder.offset { buf := ch ']' :: rest, token := ch ']', lastItem := decDigits v.toNat } 1 =
      some { buf := rest, token := ch ']', lastItem := decDigits v.toNat } by simp [Decoder.offset, sliceFrom]]
    simp only
    rw [minSliceLoop, if_pos rfl]
  | cons u r ih =>
    intro v n acc tok last rest ht hn
    obtain ⟨m, rfl⟩ : ∃ m, n = m + 1 := ⟨n - 1, by simp at hn; omega⟩
    have h := C47_uint_minified p hp tok last v (ch ',') (commaList (u :: r) ++ ch ']' :: rest) (Or.inl rfl)
    rw [encodeUInt, List.nil_append] at h
    obtain ⟨l, hl⟩ := ih u m (acc ++ [v]) (ch ',') (decDigits v.toNat) rest (by decide) (by simp at hn ⊢; omega)
    refine ⟨l, ?_⟩
    rw [minSliceLoop, if_neg ht, commaList_cons, List.append_assoc, List.cons_append, h]
    simp only
    rw [show ∀ (b : Bytes) (t : Byte) (i : Bytes), Decoder.offset { buf := ch ',' :: b, token := t, lastItem := i } 1 =
      some { buf := b, token := t, lastItem := i } from fun b t i => by simp [Decoder.offset, sliceFrom]]
    simp only
    rw [hl]
    simp

/-- C47, minified decoder: from the opening bracket; the decoder stands after the `]`. -/
theorem C47_slice_minified {w} (p : Bytes → Option (BitVec w)) (hp : ReadsDecimal p) (s : List (BitVec w)) (hs : s ≠ [])
    (tok : Byte) (last rest enc : Bytes) (htok : tok ≠ ch ']')
    (henc : encodeSlice [ch '['] s = some enc) (rounds : Nat) (hr : s.length + 1 ≤ rounds) :
    ∃ l, Decoder.minSlice p rounds { buf := enc ++ ch ']' :: rest, token := tok, lastItem := last } =
      .done { buf := rest, token := 0, lastItem := l } (.ok s) := by
  cases s with
  | nil => exact absurd rfl hs
  | cons v r =>
    rw [encodeSlice_eq] at henc
    cases henc
    obtain ⟨l, hl⟩ := minSliceLoop_run p hp r v rounds [] tok last rest htok (by simp at hr; omega)
    refine ⟨l, ?_⟩
    unfold Decoder.minSlice
    rw [show Decoder.offset { buf := [ch '['] ++ commaList (v :: r) ++ ch ']' :: rest, token := tok, lastItem := last } 1 =
      some { buf := commaList (v :: r) ++ ch ']' :: rest, token := tok, lastItem := last } by
        simp [Decoder.offset, sliceFrom]]
    simpa using hl

example : Decoder.minSlice ownParser8 4 (.init (bs "[1,20,255],\"b\":3}")) =
    .done { buf := bs ",\"b\":3}", lastItem := bs "255" } (.ok [1#8, 20#8, 255#8]) := by decide +kernel

/-! ## C47: fixed-length arrays of numbers -/

theorem arrayLoop_run {w} (p : Bytes → Option (BitVec w)) (hp : ReadsDecimal p) :
    ∀ (r : List (BitVec w)) (v : BitVec w) (acc : List (BitVec w)) (tok : Byte) (last pre rest : Bytes),
      (∀ c ∈ pre, ¬ IsDigit c) →
      arrayLoop p (r.length + 1) { buf := pre ++ (commaList (v :: r) ++ ch ']' :: rest), token := tok, lastItem := last } acc =
        ({ buf := ch ']' :: rest, token := ch ']', lastItem := [] }, acc ++ v :: r, none) := by
  intro r
  induction r with
  | nil =>
    intro v acc tok last pre rest hpre
    have h := C47_uint p hp tok last pre v (ch ']') rest hpre (Or.inr (Or.inl rfl))
    rw [encodeUInt, List.append_assoc] at h
    rw [arrayLoop, show commaList [v] = decDigits v.toNat from rfl, h]
    simp only
    rw [findEndToken_at _ [] (ch ']') rest rfl (by simp) (Or.inr (Or.inl rfl))]
    simp [arrayLoop]
  | cons u r ih =>
    intro v acc tok last pre rest hpre
    have h := C47_uint p hp tok last pre v (ch ',') (commaList (u :: r) ++ ch ']' :: rest) hpre (Or.inl rfl)
    rw [encodeUInt, List.append_assoc] at h
    rw [List.length_cons, arrayLoop, commaList_cons, List.append_assoc, List.cons_append, h]
    simp only
    rw [findEndToken_at _ [] (ch ',') _ rfl (by simp) (Or.inl rfl)]
    have := ih u (acc ++ [v]) (ch ',') [] [ch ','] rest
      (by intro c hc; simp at hc; subst hc; decide)
    rw [show ch ',' :: (commaList (u :: r) ++ ch ']' :: rest) = [ch ','] ++ (commaList (u :: r) ++ ch ']' :: rest) from rfl,
      this]
    simp

theorem checkNull_noN (b : Bytes) (h : ∀ c ∈ b, c ≠ ch 'n' ∧ c ≠ ch '"') (rest : Bytes) (x : Byte)
    (hx : x = ch ',') : checkNull false (b ++ x :: rest) = some false := by
  induction b with
  | nil => rw [List.nil_append, checkNull, if_neg (by subst hx; decide), if_neg (by subst hx; decide), if_pos hx]
  | cons c r ih =>
    have hc := h c (by simp)
    rw [List.cons_append, checkNull, if_neg hc.1, if_neg hc.2]
    split
    · rfl
    · exact ih fun y hy => h y (by simp [hy])

/-- C47. A non-empty array written as numbers and closed with `]` is decoded into an array of the
same length, provided a later comma or quote ends the search for `null` (or nothing follows the
`]` that contains an `n`). -/
theorem C47_array {w} (p : Bytes → Option (BitVec w)) (hp : ReadsDecimal p) (s : List (BitVec w)) (hs : s ≠ [])
    (tok : Byte) (last pre rest enc : Bytes) (hpre : ∀ c ∈ pre, ¬ IsDigit c)
    (henc : encodeSlice pre s = some enc)
    (hnull : Decoder.checkNullValue { buf := enc ++ ch ']' :: rest, token := tok, lastItem := last } = some false) :
    Decoder.decodeArray p s.length { buf := enc ++ ch ']' :: rest, token := tok, lastItem := last } =
      some ({ buf := ch ']' :: rest, token := ch ']', lastItem := [] }, s, none) := by
  cases s with
  | nil => exact absurd rfl hs
  | cons v r =>
    rw [encodeSlice_eq] at henc
    cases henc
    unfold Decoder.decodeArray
    rw [hnull]
    simp only
    rw [List.append_assoc, List.length_cons]
    have := arrayLoop_run p hp r v [] tok last pre rest hpre
    rw [this]
    rfl

example : Decoder.decodeArray ownParser8 3 (.init (bs "[1,20,255],\"name\":3}")) =
    some ({ buf := bs "],\"name\":3}", token := ch ']' }, [1#8, 20#8, 255#8], none) := by decide +kernel

theorem minArrayLoop_run {w} (p : Bytes → Option (BitVec w)) (hp : ReadsDecimal p) :
    ∀ (r : List (BitVec w)) (v : BitVec w) (acc : List (BitVec w)) (tok c : Byte) (last rest : Bytes),
      ∃ l, minArrayLoop p (r.length + 1) { buf := c :: (commaList (v :: r) ++ ch ']' :: rest), token := tok, lastItem := last } acc =
        some ({ buf := rest, token := ch ']', lastItem := l }, acc ++ v :: r, none) := by
  have hoff : ∀ (c t : Byte) (b i : Bytes), Decoder.offset { buf := c :: b, token := t, lastItem := i } 1 =
      some { buf := b, token := t, lastItem := i } := fun c t b i => by simp [Decoder.offset, sliceFrom]
  intro r
  induction r with
  | nil =>
    intro v acc tok c last rest
    have h := C47_uint_minified p hp tok last v (ch ']') rest (Or.inr (Or.inl rfl))
    rw [encodeUInt, List.nil_append] at h
    refine ⟨decDigits v.toNat, ?_⟩
    rw [minArrayLoop, show commaList [v] = decDigits v.toNat from rfl, hoff]
    simp only [h]
    simp [minArrayLoop]
  | cons u r ih =>
    intro v acc tok c last rest
    have h := C47_uint_minified p hp tok last v (ch ',') (commaList (u :: r) ++ ch ']' :: rest) (Or.inl rfl)
    rw [encodeUInt, List.nil_append] at h
    obtain ⟨l, hl⟩ := ih u (acc ++ [v]) (ch ',') (ch ',') (decDigits v.toNat) rest
    refine ⟨l, ?_⟩
    rw [List.length_cons, minArrayLoop, commaList_cons, List.append_assoc, List.cons_append, hoff]
    simp only [h]
    rw [hl]
    simp

/-- C47, minified decoder: from the opening bracket; the decoder stands after the `]`. -/
theorem C47_array_minified {w} (p : Bytes → Option (BitVec w)) (hp : ReadsDecimal p) (s : List (BitVec w)) (hs : s ≠ [])
    (tok : Byte) (last rest enc : Bytes) (henc : encodeSlice [ch '['] s = some enc) :
    ∃ l, Decoder.minArray p s.length { buf := enc ++ ch ']' :: rest, token := tok, lastItem := last } =
      some ({ buf := rest, token := ch ']', lastItem := l }, s, none) := by
  cases s with
  | nil => exact absurd rfl hs
  | cons v r =>
    rw [encodeSlice_eq] at henc
    cases henc
    obtain ⟨l, hl⟩ := minArrayLoop_run p hp r v [] tok (ch '[') last rest
    exact ⟨l, by simpa [Decoder.minArray] using hl⟩

example := C47_array_minified ownParser8 ownParser8_reads [1#8, 20#8, 255#8] (by decide) 0 [] (bs ",\"b\":3}") (bs "[1,20,255") (by decide +kernel)

/-! ## C47: signed numbers -/

/-- The meaning of `strconv.ParseInt(_, 10, 64)` on texts written by the encoder and on digit texts. -/
structure ReadsInt (p : Bytes → Option U64) : Prop where
  own : ∀ i : U64, p (intDigits i.toInt) = some i
  big : ∀ n : Nat, 2 ^ 63 ≤ n → p (decDigits n) = none

/-- A reader of signed decimal notation with the range of `int64`. -/
def goParseInt (s : Bytes) : Option U64 :=
  match s with
  | [] => none
  | c :: r =>
    if c = ch '-' then
      if AllDigits r ∧ r ≠ [] ∧ decVal r ≤ 2 ^ 63 then some (BitVec.ofInt 64 (-(decVal r))) else none
    else if AllDigits (c :: r) ∧ decVal (c :: r) < 2 ^ 63 then some (BitVec.ofInt 64 (decVal (c :: r)))
    else none

theorem goParseInt_digits (n : Nat) : goParseInt (decDigits n) =
    if n < 2 ^ 63 then some (BitVec.ofInt 64 n) else none := by
  obtain ⟨c, r, e, hc⟩ := decDigits_cons n
  have ha := decDigits_allDigits n
  have hv := decVal_decDigits n
  rw [e] at ha hv ⊢
  unfold goParseInt
  simp only
  rw [if_neg (by intro h; subst h; revert hc; decide), hv]
  by_cases h : n < 2 ^ 63
  · rw [if_pos ⟨ha, h⟩, if_pos h]
  · rw [if_neg (fun x => h x.2), if_neg h]

/-- The hypotheses on `ParseInt` can be met. -/
theorem goParseInt_reads : ReadsInt goParseInt where
  own i := by
    have h1 := BitVec.toInt_lt (x := i)
    have h2 := BitVec.le_toInt (x := i)
    simp only [Nat.add_one_sub_one] at h1 h2
    unfold intDigits
    split
    · rename_i hi
      unfold goParseInt
      simp only [if_true]
      rw [if_pos ⟨decDigits_allDigits _, decDigits_ne_nil _, by rw [decVal_decDigits]; omega⟩,
        decVal_decDigits]
      congr 1
      rw [show -((i.toInt.natAbs : Nat) : Int) = i.toInt by omega]
      exact BitVec.ofInt_toInt
    · rename_i hi
      rw [goParseInt_digits, if_pos (by omega)]
      congr 1
      rw [show ((i.toInt.natAbs : Nat) : Int) = i.toInt by omega]
      exact BitVec.ofInt_toInt
  big n hn := by rw [goParseInt_digits, if_neg (by omega)]

theorem intDigits_noEnd (i : Int) : ∀ c ∈ intDigits i, ¬ EndTok c := by
  intro c hc
  unfold intDigits at hc
  split at hc
  · rcases List.mem_cons.mp hc with hc | hc
    · subst hc; decide
    · exact decDigits_noEnd _ c hc
  · exact decDigits_noEnd _ c hc

/-- C47, minified decoder: every signed number is read back. -/
theorem C47_int_minified (p : Bytes → Option U64) (hp : ReadsInt p) (e : Err) (tok : Byte) (last : Bytes)
    (i : U64) (t : Byte) (rest : Bytes) (ht : EndTok t) :
    Decoder.minInt p e { buf := encodeInt64 [] i ++ t :: rest, token := tok, lastItem := last } =
      ({ buf := t :: rest, token := t, lastItem := intDigits i.toInt }, .ok i) := by
  unfold Decoder.minInt encodeInt64
  rw [findEndToken_at _ (intDigits i.toInt) t rest (by simp) (intDigits_noEnd _) ht]
  simp only [hp.own]

example := C47_int_minified goParseInt goParseInt_reads .integerCorrupted 0 [] (-7) (ch '}') [] (by decide)

/-- C196, ordinary decoder: the numbers from 0 up are read back.
Missing: negative numbers, quotes, empty lists, unknown members and cut-off text (refuted:
`C196_int_violated`, `C196_quote_violated`, `C196_encode_empty_violated` and others). -/
theorem C196_int_partial (p : Bytes → Option U64) (hp : ReadsInt p) (tok : Byte) (last pre : Bytes)
    (i : U64) (hi : 0 ≤ i.toInt) (t : Byte) (rest : Bytes) (hpre : ∀ c ∈ pre, ¬ IsDigit c) (ht : EndTok t) :
    Decoder.decodeInt p { buf := encodeInt64 pre i ++ t :: rest, token := tok, lastItem := last } =
      ({ buf := t :: rest, token := t, lastItem := intDigits i.toInt }, .ok i) := by
  have e : intDigits i.toInt = decDigits i.toInt.natAbs := by
    unfold intDigits; rw [if_neg (by omega)]
  unfold Decoder.decodeInt Decoder.trimToDigit encodeInt64
  rw [List.append_assoc, e]
  simp only [trim_digits pre i.toInt.natAbs (t :: rest) hpre]
  have := C47_int_minified p hp .integerCorrupted tok last i t rest ht
  unfold encodeInt64 at this
  rw [e, List.nil_append] at this
  exact this

example := C196_int_partial goParseInt goParseInt_reads 0 [] (bs "{\"k\":") 41 (by decide) (ch '}') [] (by decide) (by decide)

/-- C196 fails for the ordinary decoder on every negative number: the sign is dropped, so the result
is the absolute value, or an error for the smallest number. -/
theorem C196_int_violated (p : Bytes → Option U64) (hp : ReadsInt p) (tok : Byte) (last pre : Bytes)
    (i : U64) (hi : i.toInt < 0) (t : Byte) (rest : Bytes) (hpre : ∀ c ∈ pre, ¬ IsDigit c) (ht : EndTok t) :
    (Decoder.decodeInt p { buf := encodeInt64 pre i ++ t :: rest, token := tok, lastItem := last }).2 ≠ .ok i := by
  have e : intDigits i.toInt = ch '-' :: decDigits i.toInt.natAbs := by
    unfold intDigits; rw [if_pos hi]
  unfold Decoder.decodeInt Decoder.trimToDigit encodeInt64
  rw [List.append_assoc, e]
  simp only
  rw [show pre ++ ((ch '-' :: decDigits i.toInt.natAbs) ++ t :: rest) =
    (pre ++ [ch '-']) ++ (decDigits i.toInt.natAbs ++ t :: rest) by simp]
  rw [trim_digits (pre ++ [ch '-']) i.toInt.natAbs (t :: rest) (by
    intro x hx
    rcases List.mem_append.mp hx with hx | hx
    · exact hpre x hx
    · simp at hx; subst hx; decide)]
  unfold Decoder.minInt
  rw [findEndToken_at _ (decDigits i.toInt.natAbs) t rest rfl (decDigits_noEnd _) ht]
  simp only
  by_cases hb : 2 ^ 63 ≤ i.toInt.natAbs
  · rw [hp.big _ hb]; simp
  · let j : U64 := BitVec.ofInt 64 (i.toInt.natAbs)
    have hj : j.toInt = i.toInt.natAbs := by
      show (BitVec.ofInt 64 _).toInt = _
      rw [BitVec.toInt_ofInt]
      simp only [Int.bmod_def]
      omega
    have h1 : intDigits j.toInt = decDigits i.toInt.natAbs := by
      unfold intDigits; rw [hj, if_neg (by omega)]; rfl
    have h2 := hp.own j
    rw [h1] at h2
    rw [h2]
    intro h
    have h3 : j = i := by simpa using h
    rw [h3] at hj
    omega

example : Decoder.decodeInt goParseInt (.init (encodeInt64 [] (-7) ++ bs "}")) =
    ({ buf := bs "}", token := ch '}', lastItem := bs "7" }, .ok 7#64) := by decide +kernel

end Memar.Json
