import Verif.Json.Stream
import Verif.Json.Props2

/-!
# C142: JSON over codecs, readers and writers; base64 arrays and floating point numbers
-/

namespace Memar.Json
open Memar Decimal

/-! ## The codec -/

/-- C142: taking over another codec's text hands exactly that text to the object, returns the object's verdict,
and writes exactly that text afterwards; an error of the source is returned and the object left alone. -/
theorem C142_decode {S E} (fromJSON : S → Bytes → S × Option E) (toJSON : S → Bytes → Option Bytes × Option E)
    (c : Codec S) (text : Bytes) (e : E) (given : Option Bytes) :
    (c.decode fromJSON (some text, none)).1.obj = (fromJSON c.obj text).1 ∧
    (c.decode fromJSON (some text, none)).2.2 = (fromJSON c.obj text).2 ∧
    ((c.decode fromJSON (some text, none)).1.marshal toJSON).2.1 = some text ∧
    (c.decode fromJSON (given, some e)).1.obj = c.obj ∧ (c.decode fromJSON (given, some e)).2.2 = some e := by
  simp [Codec.decode, Codec.marshal]

/-- C231 violated: the number of bytes taken over is always reported as zero. -/
theorem C231_decode_count_violated {S E} (fromJSON : S → Bytes → S × Option E) (c : Codec S)
    (source : Option Bytes × Option E) : (c.decode fromJSON source).2.1 = 0 := by
  unfold Codec.decode
  cases source.2 <;> rfl

/-- C231 violated: reading from a reader takes nothing from it: whatever the reader holds, the object is decoded
from the empty text and zero bytes are reported. -/
theorem C231_read_from_violated {S E} (fromJSON : S → Bytes → S × Option E) (c : Codec S) (r1 r2 : Bytes) :
    c.readFrom fromJSON r1 = c.readFrom fromJSON r2 ∧ (c.readFrom fromJSON r1).1.obj = (fromJSON c.obj []).1 ∧
    (c.readFrom fromJSON r1).2.1 = 0 := ⟨rfl, rfl, rfl⟩

/-- C142: writing to a writer gives it, in one write, the text the codec holds, or else the object's own text, and
returns what the writer answered; writing again gives the same text. -/
theorem C142_write_to {S E} (toJSON : S → Bytes → Option Bytes × Option E) (write : Bytes → Nat × Option E)
    (c : Codec S) (text : Bytes) (h : c.payload = some text ∨ c.payload = none ∧ (toJSON c.obj []).1 = some text) :
    (c.writeTo toJSON write).2 = write text ∧ (c.writeTo toJSON write).1.payload = some text ∧
    (c.writeTo toJSON write).1.obj = c.obj := by
  rcases h with h | ⟨h, ht⟩
  · simp [Codec.writeTo, h]
  · simp [Codec.writeTo, Codec.marshal, h, ht]

example := C142_write_to (E := Unit) (fun (n : Nat) b => (some (b ++ decDigits n), none)) (fun b => (b.length, none)) { obj := 52 } (bs "52")
  (.inr ⟨rfl, by decide +kernel⟩)

/-- C231 violated: when the object cannot be encoded, writing it to a writer writes the empty text and reports
whatever the writer says, not the error. -/
theorem C231_write_error_violated {S E} (toJSON : S → Bytes → Option Bytes × Option E) (write : Bytes → Nat × Option E)
    (c : Codec S) (e : E) (h : c.payload = none) (ht : toJSON c.obj [] = (none, some e)) :
    (c.writeTo toJSON write).2 = write [] := by
  simp [Codec.writeTo, Codec.marshal, h, ht]

/-- An object that is a number: decoded, written. -/
example : let toJSON : Nat → Bytes → Option Bytes × Option Unit := fun n b => (some (b ++ decDigits n), none)
    let write : Bytes → Nat × Option Unit := fun b => (b.length, none)
    (Codec.writeTo toJSON write { obj := 52 }).2 = (2, none) ∧
    (Codec.writeTo toJSON write (Codec.decode (E := Unit) (fun _ b => (b.length, none)) { obj := 52 } (some (bs "xyz"), none)).1).2 =
      (3, none) := by decide +kernel

/-! ## Arrays -/

theorem intoArray_exact (dec : Bytes → Bytes × Bool) (over : Bytes → Nat → Nat) (array text s : Bytes) (hd : dec text = (s, true))
    (hl : s.length = array.length) : intoArray dec over array text = some (s, true) := by
  simp [intoArray, hd, hl, zeroFirst]

/-- C142: an array written as base64 between quotes is read back into an array of its length, and the decoder
stands at the end token behind it. -/
theorem C142_array (enc : Bytes → Bytes) (dec : Bytes → Option Bytes) (hb : Base64Codec enc dec)
    (dec2 : Bytes → Bytes × Bool) (h2 : ∀ x r, dec x = some r → dec2 x = (r, true)) (over : Bytes → Nat → Nat)
    (tok : Byte) (last pre s array rest : Bytes) (t : Byte) (ht : EndTok t) (hpre : Plain pre)
    (hl : s.length = array.length) :
    Decoder.decodeArray64 dec2 over { buf := pre ++ ch '"' :: (enc s ++ ch '"' :: t :: rest), token := tok, lastItem := last }
        array =
      some ({ buf := t :: rest, token := t, lastItem := enc s ++ [ch '"'] }, s, none) := by
  have hq : ch '"' ∉ enc s := fun h => (hb.noEnd s _ h).2 rfl
  have hpq : ch '"' ∉ pre := fun h => (hpre _ h).1 rfl
  unfold Decoder.decodeArray64
  rw [show Decoder.checkNullValue { buf := pre ++ ch '"' :: (enc s ++ ch '"' :: t :: rest), token := tok, lastItem := last }
    = some false from checkNull_plain pre _ hpre]
  simp only
  rw [trimToString_at tok last pre _ hpq]
  simp only [indexByte_append (enc s) _ _ hq, take_quote]
  rw [intoArray_exact dec2 over array (enc s) s (h2 _ _ (hb.inv s)) hl]
  simp only
  rw [findEndToken_at _ (enc s ++ [ch '"']) t rest (by simp) ?_ ht]
  intro c hc
  rcases List.mem_append.mp hc with hc | hc
  · exact (hb.noEnd s c hc).1
  · simp at hc; subst hc; decide

/-- A decoder that tells what it read before the damage. -/
def exDec2 (x : Bytes) : Bytes × Bool := match Base64.decode x with | some r => (r, true) | none => ([7], false)

/-- The library writes a group of four bytes for the three of four characters. -/
def exOver (x : Bytes) (n : Nat) : Nat := if x.length = 4 ∧ 4 ≤ n then 1 else 0

theorem exDec2_reads (x r : Bytes) (h : Base64.decode x = some r) : exDec2 x = (r, true) := by simp [exDec2, h]

example := C142_array Base64.encode Base64.decode base64_real exDec2 exDec2_reads exOver 0 [] (bs " ") [1, 2, 3] [9, 9, 9] [] (ch '}') (by decide)
  (by unfold Plain; decide) rfl

/-- C142, minified decoder: from the opening quote to behind the closing one. -/
theorem C142_array_minified (enc : Bytes → Bytes) (dec : Bytes → Option Bytes) (hb : Base64Codec enc dec)
    (dec2 : Bytes → Bytes × Bool) (h2 : ∀ x r, dec x = some r → dec2 x = (r, true)) (over : Bytes → Nat → Nat)
    (tok : Byte) (last s array rest : Bytes) (hl : s.length = array.length) :
    Decoder.minArray64 dec2 over { buf := ch '"' :: (enc s ++ ch '"' :: rest), token := tok, lastItem := last } array =
      some ({ buf := rest, token := tok, lastItem := last }, s, none) := by
  have hq : ch '"' ∉ enc s := fun h => (hb.noEnd s _ h).2 rfl
  unfold Decoder.minArray64
  rw [show Decoder.offset { buf := ch '"' :: (enc s ++ ch '"' :: rest), token := tok, lastItem := last } 1 =
    some { buf := enc s ++ ch '"' :: rest, token := tok, lastItem := last } by simp [Decoder.offset, sliceFrom]]
  simp only [indexByte_append (enc s) _ _ hq, take_quote]
  rw [intoArray_exact dec2 over array (enc s) s (h2 _ _ (hb.inv s)) hl]
  simp only
  have : Decoder.offset { buf := enc s ++ ch '"' :: rest, token := tok, lastItem := last } ((enc s).length + 1) =
      some { buf := rest, token := tok, lastItem := last } := by
    unfold Decoder.offset sliceFrom
    rw [if_pos (by simp)]
    simp only [Option.map_some, drop_quote]
  rw [this]
  rfl

example := C142_array_minified Base64.encode Base64.decode base64_real exDec2 exDec2_reads exOver 0 [] [1, 2, 3] [9, 9, 9] (bs ",") rfl

/-- C231 violated: text of another length is not reported. One that is too short is accepted, and behind the bytes read
the array holds zeros, as many as the library happens to write, and then what it held; one that is too long panics. -/
theorem C231_array_length_violated (enc : Bytes → Bytes) (dec : Bytes → Option Bytes) (hb : Base64Codec enc dec)
    (dec2 : Bytes → Bytes × Bool) (h2 : ∀ x r, dec x = some r → dec2 x = (r, true)) (over : Bytes → Nat → Nat)
    (tok : Byte) (last s array rest : Bytes) :
    (s.length < array.length →
      Decoder.minArray64 dec2 over { buf := ch '"' :: (enc s ++ ch '"' :: rest), token := tok, lastItem := last } array =
        some ({ buf := rest, token := tok, lastItem := last }, s ++ (List.replicate (min (over (enc s) array.length) (array.length - s.length)) 0 ++
          array.drop (s.length + over (enc s) array.length)), none)) ∧
    (array.length < s.length →
      Decoder.minArray64 dec2 over { buf := ch '"' :: (enc s ++ ch '"' :: rest), token := tok, lastItem := last } array = none) := by
  have hq : ch '"' ∉ enc s := fun h => (hb.noEnd s _ h).2 rfl
  have h1 : Decoder.offset { buf := ch '"' :: (enc s ++ ch '"' :: rest), token := tok, lastItem := last } 1 =
    some { buf := enc s ++ ch '"' :: rest, token := tok, lastItem := last } := by simp [Decoder.offset, sliceFrom]
  have h3 : Decoder.offset { buf := enc s ++ ch '"' :: rest, token := tok, lastItem := last } ((enc s).length + 1) =
      some { buf := rest, token := tok, lastItem := last } := by
    unfold Decoder.offset sliceFrom
    rw [if_pos (by simp)]
    simp only [Option.map_some, drop_quote]
  constructor
  · intro hl
    unfold Decoder.minArray64
    rw [h1]
    simp only [indexByte_append (enc s) _ _ hq, take_quote, intoArray, h2 _ _ (hb.inv s)]
    rw [if_pos (by omega)]
    simp only [h3, Option.map_some, zeroFirst, List.length_drop, List.drop_drop]
    rfl
  · intro hl
    unfold Decoder.minArray64
    rw [h1]
    simp only [indexByte_append (enc s) _ _ hq, take_quote, intoArray, h2 _ _ (hb.inv s)]
    rw [if_neg (by omega)]

example := (C231_array_length_violated Base64.encode Base64.decode base64_real exDec2 exDec2_reads exOver 0 [] [1, 2, 3] [9, 9, 9, 9] (bs ",")).1
  (by decide)
example := (C231_array_length_violated Base64.encode Base64.decode base64_real exDec2 exDec2_reads exOver 0 [] [1, 2, 3] [9, 9] (bs ",")).2
  (by decide)

/-- C142: damaged text between the quotes is reported; so is a missing closing quote, with the array untouched. -/
theorem C142_array_damaged (dec2 : Bytes → Bytes × Bool) (over : Bytes → Nat → Nat) (tok : Byte) (last x part array rest : Bytes)
    (hx : ch '"' ∉ x) (hd : dec2 x = (part, false)) (hl : part.length ≤ array.length) :
    (∃ d a, Decoder.minArray64 dec2 over { buf := ch '"' :: (x ++ ch '"' :: rest), token := tok, lastItem := last } array =
      some (d, a, some .arrayCorrupted)) ∧
    ∃ d, Decoder.minArray64 dec2 over { buf := ch '"' :: x, token := tok, lastItem := last } array =
      some (d, array, some .arrayCorrupted) := by
  have h1 : Decoder.offset { buf := ch '"' :: (x ++ ch '"' :: rest), token := tok, lastItem := last } 1 =
    some { buf := x ++ ch '"' :: rest, token := tok, lastItem := last } := by simp [Decoder.offset, sliceFrom]
  have h2 : Decoder.offset { buf := ch '"' :: x, token := tok, lastItem := last } 1 =
    some { buf := x, token := tok, lastItem := last } := by simp [Decoder.offset, sliceFrom]
  constructor
  · unfold Decoder.minArray64
    rw [h1]
    simp only [indexByte_append x _ _ hx, take_quote, intoArray, hd, if_pos hl]
    exact ⟨_, _, rfl⟩
  · unfold Decoder.minArray64
    rw [h2]
    simp only [(indexByte_none_iff x (ch '"')).mpr hx]
    exact ⟨_, rfl⟩

example := C142_array_damaged exDec2 exOver 0 [] (bs "AQ?D") [7] [9, 9, 9] (bs ",") (by decide) (by decide +kernel) (by decide)

/-- C142: `null` leaves the array as it is, without an error. -/
theorem C142_array_null (dec2 : Bytes → Bytes × Bool) (over : Bytes → Nat → Nat) (tok : Byte) (last rest array : Bytes) :
    Decoder.decodeArray64 dec2 over { buf := bs "null," ++ rest, token := tok, lastItem := last } array =
      some ({ buf := bs "null," ++ rest, token := tok, lastItem := last }, array, none) := by
  have : checkNull false (bs "null," ++ rest) = some true := by
    rw [show bs "null," ++ rest = ch 'n' :: ch 'u' :: ch 'l' :: ch 'l' :: ch ',' :: rest from rfl]
    simp [checkNull, ch, bs]
  unfold Decoder.decodeArray64
  rw [show Decoder.checkNullValue { buf := bs "null," ++ rest, token := tok, lastItem := last } = some true from this]

example : let dec2 : Bytes → Bytes × Bool := fun x => match Base64.decode x with | some r => (r, true) | none => ([], false)
    Decoder.minArray64 dec2 exOver (.init (bs "\"AQID\",")) [9, 9, 9] = some (.init (bs ","), [1, 2, 3], none) ∧
    Decoder.minArray64 dec2 exOver (.init (bs "\"AQID\",")) [9, 9, 9, 9] = some (.init (bs ","), [1, 2, 3, 0], none) ∧
    Decoder.minArray64 dec2 exOver (.init (bs "\"AQID\",")) [9, 9] = none := by decide +kernel

/-! ## Floating point numbers -/

/-- C142: the minified decoder hands the text before the end token, whole, to the number parser; its verdict is the
result and the decoder stands at the end token. -/
theorem C142_float_minified {F : Type} (p : Bytes → Option F) (tok : Byte) (last x rest : Bytes) (t : Byte)
    (ht : EndTok t) (hx : ∀ c ∈ x, ¬ EndTok c) :
    Decoder.minFloat p { buf := x ++ t :: rest, token := tok, lastItem := last } =
      ({ buf := t :: rest, token := t, lastItem := x },
        match p x with | some v => .ok v | none => .error .stringCorrupted) := by
  unfold Decoder.minFloat
  rw [findEndToken_at _ x t rest rfl hx ht]
  cases h : p x <;> simp [h]

example := C142_float_minified (fun b => if b = bs "-1.5" then some 15 else none) 0 [] (bs "-1.5") (bs "\"b\"") (ch ',') (by decide) (by decide)

/-- C231: the other decoder does so from the first digit on.
Missing: signs, and the other parts of the property (refuted: `C231_decode_count_violated`,
`C231_read_from_violated`, `C231_write_error_violated` and others). -/
theorem C231_float_partial {F : Type} (p : Bytes → Option F) (tok : Byte) (last pre x rest : Bytes) (g t : Byte)
    (ht : EndTok t) (hg : IsDigit g) (hpre : ∀ c ∈ pre, ¬ IsDigit c) (hx : ∀ c ∈ g :: x, ¬ EndTok c) :
    Decoder.decodeFloat p { buf := pre ++ (g :: x) ++ t :: rest, token := tok, lastItem := last } =
      ({ buf := t :: rest, token := t, lastItem := g :: x },
        match p (g :: x) with | some v => .ok v | none => .error .integerCorrupted) := by
  have hdrop : dropTo digit (pre ++ (g :: x) ++ t :: rest) = (g :: x) ++ t :: rest := by
    rw [List.append_assoc, List.cons_append]
    apply dropTo_append
    · intro y hy
      have := hpre y hy
      rw [← digit_iff] at this
      simpa using this
    · exact (digit_iff g).mpr hg
  unfold Decoder.decodeFloat Decoder.trimToDigit
  simp only [hdrop]
  rw [findEndToken_at _ (g :: x) t rest rfl hx ht]
  cases h : p (g :: x) <;> simp [h]

example := C231_float_partial (fun b => if b = bs "1.5" then some 15 else none) 0 [] (bs " ") (bs ".5") (bs "\"b\"") (ch '1') (ch ',')
  (by decide) (by decide) (by decide) (by decide)

/-- C231 violated: the sign of a negative number is passed over, as is a leading decimal point: the number read is
the one that starts at the first digit. -/
theorem C231_float_sign_violated {F : Type} (p : Bytes → Option F) (tok : Byte) (last x rest : Bytes) (g t : Byte)
    (ht : EndTok t) (hg : IsDigit g) (hx : ∀ c ∈ g :: x, ¬ EndTok c) :
    Decoder.decodeFloat p { buf := ch '-' :: (g :: x) ++ t :: rest, token := tok, lastItem := last } =
      Decoder.decodeFloat p { buf := (g :: x) ++ t :: rest, token := tok, lastItem := last } ∧
    Decoder.decodeFloat p { buf := ch '.' :: (g :: x) ++ t :: rest, token := tok, lastItem := last } =
      Decoder.decodeFloat p { buf := (g :: x) ++ t :: rest, token := tok, lastItem := last } := by
  have h1 := C231_float_partial p tok last [ch '-'] x rest g t ht hg (by intro c hc; simp at hc; subst hc; decide) hx
  have h2 := C231_float_partial p tok last [] x rest g t ht hg (by simp) hx
  have h3 := C231_float_partial p tok last [ch '.'] x rest g t ht hg (by intro c hc; simp at hc; subst hc; decide) hx
  simp only [List.singleton_append, List.nil_append] at h1 h2 h3
  exact ⟨h1.trans h2.symm, h3.trans h2.symm⟩

example : let p : Bytes → Option Nat := fun b => if b = bs "1.5" then some 15 else if b = bs "-1.5" then some 99 else none
    (Decoder.decodeFloat p (.init (bs " 1.5,"))).2 = .ok 15 ∧ (Decoder.decodeFloat p (.init (bs "-1.5,"))).2 = .ok 15 ∧
    (Decoder.minFloat p (.init (bs "-1.5,"))).2 = .ok 99 := by decide +kernel

/-- C142: a token is reported once: a second look finds it no more. -/
theorem C142_token_once (d : Decoder) (t : Byte) :
    (d.checkToken t).2 = decide (d.token = t) ∧
    (t ≠ 0 → d.token = t → ((d.checkToken t).1.checkToken t).2 = false) ∧
    (d.token ≠ t → (d.checkToken t).1 = d) := by
  refine ⟨?_, ?_, ?_⟩
  · unfold Decoder.checkToken; split <;> simp_all
  · intro h0 h
    unfold Decoder.checkToken
    rw [if_pos h, if_neg (fun e => h0 e.symm)]
  · intro h; simp [Decoder.checkToken, h]

end Memar.Json
