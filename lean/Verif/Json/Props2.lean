import Verif.Json.Props
import Verif.Base64

/-!
# JSON: where the round trip fails (C47), whole objects, arbitrary text (C86), the codec cache (C87)
-/

namespace Memar.Json
open Memar Decimal

/-- The part of a text before its first quote. -/
def beforeQuote (s : Bytes) : Bytes := s.takeWhile (fun c => c ≠ ch '"')

theorem split_quote (s : Bytes) (h : ch '"' ∈ s) :
    ∃ r, s = beforeQuote s ++ ch '"' :: r ∧ ch '"' ∉ beforeQuote s := by
  induction s with
  | nil => cases h
  | cons c s ih =>
    by_cases hc : c = ch '"'
    · subst hc; exact ⟨s, by simp [beforeQuote], by simp [beforeQuote]⟩
    · have : ch '"' ∈ s := by
        rcases List.mem_cons.mp h with h | h
        · exact absurd h.symm hc
        · exact h
      obtain ⟨r, e, hn⟩ := ih this
      have hb : beforeQuote (c :: s) = c :: beforeQuote s := by
        simp [beforeQuote, hc]
      refine ⟨r, ?_, ?_⟩
      · rw [hb, List.cons_append, ← e]
      · rw [hb]; simp only [List.mem_cons, not_or]; exact ⟨Ne.symm hc, hn⟩

/-- C196 fails for every string with a quote character: the encoder does not escape it, so the
decoder returns the part before the first quote. -/
theorem C196_quote_violated (tok : Byte) (last pre s rest : Bytes) (hpre : Plain pre) (hs : ch '"' ∈ s) :
    ∃ d, Decoder.decodeString { buf := encodeStringValue pre s ++ rest, token := tok, lastItem := last } =
      some (d, .ok (beforeQuote s)) ∧ beforeQuote s ≠ s := by
  obtain ⟨r, e, hn⟩ := split_quote s hs
  have hq : ch '"' ∉ pre := fun h => (hpre _ h).1 rfl
  have e2 : encodeStringValue pre s ++ rest =
      pre ++ ch '"' :: (beforeQuote s ++ ch '"' :: (r ++ bs "\"," ++ rest)) := by
    unfold encodeStringValue
    rw [List.append_assoc, List.append_assoc, List.append_assoc]
    congr 1
    rw [List.singleton_append]
    congr 1
    have : s ++ (bs "\"," ++ rest) = (beforeQuote s ++ ch '"' :: r) ++ (bs "\"," ++ rest) := by rw [← e]
    rw [this]
    simp
  have hnull := checkNull_plain pre (beforeQuote s ++ ch '"' :: (r ++ bs "\"," ++ rest)) hpre
  refine ⟨{ buf := r ++ bs "\"," ++ rest, token := tok, lastItem := last }, ?_, ?_⟩
  · rw [e2]
    unfold Decoder.decodeString Decoder.checkNullValue
    simp only [hnull, stringBody_at tok last pre (beforeQuote s) _ hq hn]
  · intro h
    rw [h] at hn
    exact hn hs

example : Decoder.decodeString (.init (encodeStringValue [] (bs "a\"b"))) =
    some ({ buf := bs "b\"," }, .ok (bs "a")) := by decide +kernel

/-! ## Empty slices -/

/-- C196 fails for the empty list: the encoder removes a comma that was already in the buffer, and
panics when the buffer is empty. Nothing is lost only when the buffer ends in another byte. -/
theorem C196_encode_empty_violated {w} (buf : Bytes) :
    encodeSlice (w := w) [] [] = none ∧
    encodeSlice (w := w) (buf ++ [ch ',']) [] = some buf ∧
    (∀ c, c ≠ ch ',' → encodeSlice (w := w) (buf ++ [c]) [] = some (buf ++ [c])) := by
  refine ⟨rfl, ?_, ?_⟩
  · unfold encodeSlice encodeSliceLoop removeTrailingComma
    simp
  · intro c hc
    unfold encodeSlice encodeSliceLoop removeTrailingComma
    simp [hc]

/-- C196 fails for the empty list: after `[]` the ordinary decoder takes the numbers of the next list
in the text as the elements of this one. -/
theorem C196_decode_empty_violated {w} (p : Bytes → Option (BitVec w)) (hp : ReadsDecimal p) (s : List (BitVec w))
    (hs : s ≠ []) (k rest enc : Bytes) (hk : ∀ c ∈ k, ¬ IsDigit c)
    (henc : encodeSlice (bs "[],\"" ++ k ++ bs "\":[") s = some enc) (rounds : Nat) (hr : s.length + 1 ≤ rounds) :
    Decoder.decodeSlice p rounds (.init (enc ++ ch ']' :: rest)) =
      .done { buf := ch ']' :: rest, token := 0, lastItem := [] } (.ok s) := by
  refine C47_slice p hp s hs 0 [] _ rest enc (by decide) ?_ henc rounds hr
  intro c hc
  rcases List.mem_append.mp hc with hc | hc
  · rcases List.mem_append.mp hc with hc | hc
    · exact (by decide : ∀ c ∈ bs "[],\"", ¬ IsDigit c) c hc
    · exact hk c hc
  · exact (by decide : ∀ c ∈ bs "\":[", ¬ IsDigit c) c hc

example : Decoder.decodeSlice ownParser8 5 (.init (bs "[],\"b\":[7,9]}")) =
    .done { buf := bs "]}" } (.ok [7#8, 9#8]) := by decide +kernel

/-- C196 fails for the empty list with the minified decoder: `[]` is refused. -/
theorem C196_min_empty_violated {w} (p : Bytes → Option (BitVec w)) (hp : ReadsDecimal p) (rest : Bytes) (rounds : Nat) :
    ∃ d, Decoder.minSlice p (rounds + 1) (.init (bs "[]" ++ rest)) = .done d (.error .sliceCorrupted) := by
  refine ⟨{ buf := ch ']' :: rest, token := ch ']', lastItem := [] }, ?_⟩
  unfold Decoder.minSlice
  rw [show Decoder.offset (.init (bs "[]" ++ rest)) 1 = some { buf := ch ']' :: rest, token := 0, lastItem := [] } by
    simp [Decoder.offset, Decoder.init, sliceFrom, bs, ch]]
  simp only
  rw [minSliceLoop, if_neg not_rbracket_zero]
  unfold Decoder.minUInt
  rw [findEndToken_at _ [] (ch ']') rest rfl (by simp) (Or.inr (Or.inl rfl))]
  simp only [hp.empty]

example := C196_min_empty_violated ownParser8 ownParser8_reads (bs ",\"b\":1}") 3

/-- After an array has been decoded the end token `]` is still remembered, and the next list is
decoded as empty whatever it holds. -/
theorem C196_stale_token_violated {w} (p : Bytes → Option (BitVec w)) (d : Decoder) (rounds : Nat)
    (h : d.token = ch ']') :
    Decoder.decodeSlice p (rounds + 1) d = .done { d with token := 0 } (.ok []) := by
  unfold Decoder.decodeSlice
  rw [sliceLoop, if_pos h]

/-- The situation of `C196_stale_token_violated` is reached by decoding an array. -/
example : (match Decoder.decodeArray ownParser8 2 (.init (bs "[1,2],\"b\":[7,9]}")) with
    | some (d, _, _) => Decoder.decodeSlice ownParser8 9 (d.decodeKey).1
    | none => .panic) = .done { buf := bs "[7,9]}" } (.ok []) := by decide +kernel

/-! ## C86: arbitrary text -/

theorem findEndToken_length (d : Decoder) : d.findEndToken.buf.length ≤ d.buf.length := by
  unfold Decoder.findEndToken
  cases h : findEnd d.buf with
  | none => simp
  | some x =>
    obtain ⟨i, t, r⟩ := x
    simp only
    have := (findEnd_some _ _ _ _ h).1
    rw [this]; simp

/-- One successful number: the text got shorter, or nothing was found and the last item was used
again. -/
theorem decodeUInt_progress {w} (p : Bytes → Option (BitVec w)) (hp : p [] = none) (d : Decoder)
    (hl : d.lastItem = []) (d' : Decoder) (v : BitVec w) (h : d.decodeUInt p = (d', .ok v)) :
    d'.buf.length < d.buf.length ∧ ∃ t r, d'.buf = t :: r ∧ EndTok t := by
  unfold Decoder.decodeUInt Decoder.minUInt at h
  simp only at h
  split at h
  · rename_i v' hv
    have hd : d.trimToDigit.findEndToken = d' := by simpa using congrArg Prod.fst h
    have hlen : d.trimToDigit.buf.length ≤ d.buf.length := dropTo_length_le _ _
    cases hf : findEnd d.trimToDigit.buf with
    | none =>
      have : d.trimToDigit.findEndToken.lastItem = [] := by
        unfold Decoder.findEndToken; rw [hf]; exact hl
      rw [this, hp] at hv; cases hv
    | some x =>
      obtain ⟨i, t, r⟩ := x
      obtain ⟨e, ht, hn, r', hr⟩ := findEnd_some _ _ _ _ hf
      have hd2 : d.trimToDigit.findEndToken = { d.trimToDigit with buf := r, token := t, lastItem := i } := by
        unfold Decoder.findEndToken; rw [hf]
      rw [hd2] at hv hd
      cases i with
      | nil => simp only at hv; rw [hp] at hv; cases hv
      | cons a i =>
        subst hd
        refine ⟨?_, t, r', hr, ht⟩
        simp only
        rw [e] at hlen
        simp at hlen
        omega
  · cases h

/-- C86. A list decoder that starts without a remembered last item returns (a list or an error) on
every text, after at most one round per byte. It never panics. -/
theorem C86_slice_terminates {w} (p : Bytes → Option (BitVec w)) (hp : p [] = none) (d : Decoder)
    (hl : d.lastItem = []) (rounds : Nat) (hr : d.buf.length + 1 ≤ rounds) :
    ∃ d' r, Decoder.decodeSlice p rounds d = .done d' r := by
  unfold Decoder.decodeSlice
  generalize ([] : List (BitVec w)) = acc
  induction rounds generalizing d acc with
  | zero => omega
  | succ n ih =>
    rw [sliceLoop]
    split
    · exact ⟨_, _, rfl⟩
    · cases hd : d.decodeUInt p with
      | mk d1 r1 =>
        cases r1 with
        | error e => exact ⟨_, _, rfl⟩
        | ok v =>
          simp only
          obtain ⟨hlt, t, r, hb, ht⟩ := decodeUInt_progress p hp d hl d1 v hd
          have hfe := findEndToken_at d1 [] t r (by rw [hb]; rfl) (by simp) ht
          rw [hfe]
          apply ih
          · rfl
          · simp only
            rw [← hb]; omega

example : ∃ d' r, Decoder.decodeSlice ownParser8 9 (.init (bs "[1, 2x, ")) = .done d' r :=
  C86_slice_terminates _ (by decide) _ rfl _ (by decide)

/-- C278 fails for a decoder with a remembered last item: when a number has been read before and the
text ends without an end token, the list decoder never returns, for any number of rounds. -/
theorem C278_hang_violated {w} (p : Bytes → Option (BitVec w)) (d : Decoder) (v : BitVec w)
    (hv : p d.lastItem = some v) (hb : ∀ c ∈ d.buf, ¬ EndTok c) (htok : d.token ≠ ch ']') (rounds : Nat) :
    Decoder.decodeSlice p rounds d = .running := by
  unfold Decoder.decodeSlice
  generalize ([] : List (BitVec w)) = acc
  induction rounds generalizing d acc with
  | zero => rfl
  | succ n ih =>
    rw [sliceLoop, if_neg htok]
    have hb2 : ∀ c ∈ d.trimToDigit.buf, ¬ EndTok c := by
      intro c hc
      apply hb
      unfold Decoder.trimToDigit dropTo at hc
      simp only at hc
      split at hc
      · exact hc
      · exact (List.dropWhile_sublist _).subset hc
    have h1 : d.trimToDigit.findEndToken = d.trimToDigit := by
      unfold Decoder.findEndToken; rw [findEnd_none _ hb2]
    have h2 : d.decodeUInt p = (d.trimToDigit, .ok v) := by
      unfold Decoder.decodeUInt Decoder.minUInt
      simp only [h1]
      rw [show d.trimToDigit.lastItem = d.lastItem from rfl, hv]
    rw [h2]
    simp only [h1]
    exact ih d.trimToDigit hv hb2 htok _

/-- A cut-off object reaches that state: `{"a":5,"b":` read by key, number, key, list. -/
example : (let d := (Decoder.init (bs "{\"a\":5,\"b\":")).decodeKey.1
           let d := (d.decodeUInt ownParser8).1
           let d := d.decodeKey.1
           ownParser8 d.lastItem = some 5 ∧ (∀ c ∈ d.buf, ¬ EndTok c) ∧ d.token ≠ ch ']') := by decide +kernel

/-- C86. Numbers and keys of the ordinary decoder never panic, and never lengthen the text. -/
theorem C86_uint_shrinks {w} (p : Bytes → Option (BitVec w)) (d : Decoder) :
    (d.decodeUInt p).1.buf.length ≤ d.buf.length := by
  unfold Decoder.decodeUInt Decoder.minUInt
  have h1 : d.trimToDigit.findEndToken.buf.length ≤ d.buf.length :=
    Nat.le_trans (findEndToken_length _) (dropTo_length_le _ _)
  simp only
  split <;> exact h1

/-- C86. Reading a key with the ordinary decoder never panics and never lengthens the text. -/
theorem C86_key_shrinks (d : Decoder) : (d.decodeKey).1.buf.length ≤ d.buf.length := by
  have h0 : d.trimToStringStart.buf.length ≤ d.buf.length := by
    unfold Decoder.trimToStringStart
    split
    · simp
    · exact Nat.le_refl _
  unfold Decoder.decodeKey
  simp only
  split
  · exact h0
  · split <;> (simp only [List.length_drop]; omega)

/-- C86: what reading a key leaves: the text behind the first colon that follows the closing quote of the key, or, when there is
no colon, all that follows the quote. Token and last item are kept. -/
theorem C86_key_left (d : Decoder) (pre k rest : Bytes) (hb : d.buf = pre ++ ch '"' :: (k ++ ch '"' :: rest))
    (hp : ch '"' ∉ pre) (hk : ch '"' ∉ k) :
    (ch ':' ∉ rest → d.decodeKey = ({ d with buf := rest }, k)) ∧
    ∀ gap more, rest = gap ++ ch ':' :: more → ch ':' ∉ gap → d.decodeKey = ({ d with buf := more }, k) := by
  have e1 : d.trimToStringStart = { d with buf := k ++ ch '"' :: rest } := by
    unfold Decoder.trimToStringStart
    rw [hb, indexByte_append _ _ _ hp]
    simp [indexByte]
  have e2 : indexByte (k ++ ch '"' :: rest) (ch '"') = some k.length := by
    rw [indexByte_append _ _ _ hk]
  unfold Decoder.decodeKey
  simp only [e1, e2, List.take_left]
  have e3 : (k ++ ch '"' :: rest).drop (k.length + 1) = rest := by
    rw [List.drop_append, List.drop_eq_nil_of_le (by omega)]; simp
  rw [e3]
  constructor
  · intro h
    rw [(indexByte_none_iff rest _).mpr h]
  · intro gap more hr hg
    have e4 : indexByte (gap ++ ch ':' :: more) (ch ':') = some gap.length := by
      rw [indexByte_append _ _ _ hg]
    rw [hr, e4]
    simp only
    rw [List.drop_append, List.drop_eq_nil_of_le (by omega)]; simp

example : (Decoder.init (bs "{\"key\" 12")).decodeKey = ({ buf := bs " 12" }, bs "key") := by decide

/-- C86: `DecodeBool` panics exactly when the text after the spaces is too short. -/
theorem C86_bool_panic (d : Decoder) :
    d.decodeBool = none ↔
      match d.trimSpaces.buf with
      | [] => True
      | c :: r => r.length < (if c = ch 't' then 4 else 5) := by
  unfold Decoder.decodeBool Decoder.minBool
  cases hb : d.trimSpaces.buf with
  | nil => simp
  | cons c r =>
    simp only
    split <;> rename_i hc
    · unfold Decoder.offset sliceFrom
      rw [hb]
      simp
    · unfold Decoder.offset sliceFrom
      rw [hb]
      simp

/-- C278 fails: an empty value, and a boolean cut off or standing at the very end, panic. -/
theorem C278_bool_panic_violated :
    Decoder.decodeBool (.init []) = none ∧ Decoder.decodeBool (.init (bs "true")) = none ∧
    Decoder.decodeBool (.init (bs "false")) = none := by decide +kernel

/-- C86: `DecodeString` panics only because of an `n` less than four bytes before the end of the text. -/
theorem C86_string_panic (d : Decoder) (h : d.decodeString = none) :
    ∃ a b, d.buf = a ++ ch 'n' :: b ∧ b.length < 3 := by
  have : checkNull false d.buf = none := by
    unfold Decoder.decodeString Decoder.checkNullValue at h
    split at h
    · rename_i hn; exact hn
    · cases h
    · cases h
  clear h
  generalize d.buf = b at this
  generalize hz : false = z at this
  clear hz
  induction b generalizing z with
  | nil => simp [checkNull] at this
  | cons c r ih =>
    rw [checkNull] at this
    split at this
    · rename_i hc
      split at this
      · rename_i hl; exact ⟨[], r, by rw [hc]; rfl, hl⟩
      · obtain ⟨a, b, e, hl⟩ := ih _ this
        exact ⟨c :: a, b, by rw [e]; rfl, hl⟩
    · split at this
      · cases this
      · split at this
        · cases this
        · obtain ⟨a, b, e, hl⟩ := ih _ this
          exact ⟨c :: a, b, by rw [e]; rfl, hl⟩

example : Decoder.decodeString (.init (bs "n}")) = none := by decide +kernel

/-- C86: `null` for a string gives the empty string and consumes nothing. -/
theorem C86_null (tok : Byte) (last rest : Bytes) :
    Decoder.decodeString { buf := bs "null," ++ rest, token := tok, lastItem := last } =
      some ({ buf := bs "null," ++ rest, token := tok, lastItem := last }, .ok []) := by
  have : checkNull false (bs "null," ++ rest) = some true := by
    rw [show bs "null," ++ rest = ch 'n' :: ch 'u' :: ch 'l' :: ch 'l' :: ch ',' :: rest from rfl]
    rw [checkNull, if_pos rfl, if_neg (by simp)]
    rw [show (false || List.take 3 (ch 'u' :: ch 'l' :: ch 'l' :: ch ',' :: rest) == bs "ull") = true by
      simp [bs, ch]]
    rw [checkNull, if_neg (by decide), if_neg (by decide), if_neg (by decide),
      checkNull, if_neg (by decide), if_neg (by decide), if_neg (by decide),
      checkNull, if_neg (by decide), if_neg (by decide), if_neg (by decide),
      checkNull, if_neg (by decide), if_neg (by decide), if_pos rfl]
  unfold Decoder.decodeString Decoder.checkNullValue
  simp only [this]

/-! ## C47: whole objects

The client writes `{`, then for every field the key and the value followed by a comma, removes the
last comma and writes `}`. The reading client repeats: unless `End`, read a key, then a value of
the kind that belongs to the key. -/

inductive Kind where
  | num | str | flag
  deriving DecidableEq

inductive Val where
  | num (v : U64) | str (s : Bytes) | flag (b : Bool)
  deriving DecidableEq

def Val.kind : Val → Kind
  | .num _ => .num
  | .str _ => .str
  | .flag _ => .flag

/-- The value of a field; numbers and booleans need the trailing comma added. -/
def writeVal (buf : Bytes) : Val → Bytes
  | .num v => addTrailingComma (encodeUInt buf v)
  | .str s => encodeStringValue buf s
  | .flag b => addTrailingComma (encodeBoolean buf b)

/-- The writing client. -/
def writeObject (fields : List (Bytes × Val)) : Option Bytes :=
  (removeTrailingComma (fields.foldl (fun b f => writeVal (encodeKey b f.1) f.2) (encodeByte [] (ch '{')))).map
    (fun b => encodeByte b (ch '}'))

/-- One value by kind. -/
def readVal (p : Bytes → Option U64) (d : Decoder) : Kind → Option (Decoder × Val)
  | .num => match d.decodeUInt p with
    | (d, .ok v) => some (d, .num v)
    | _ => none
  | .str => match d.decodeString with
    | some (d, .ok s) => some (d, .str s)
    | _ => none
  | .flag => d.decodeBool.map fun x => (x.1, .flag x.2)

/-- The reading client, with a bound on the number of rounds. -/
def readObject (p : Bytes → Option U64) (kind : Bytes → Kind) : Nat → Decoder → Option (List (Bytes × Val))
  | 0, _ => none
  | n + 1, d =>
    if d.atEnd then some []
    else
      let r := d.decodeKey
      match readVal p r.1 (kind r.2) with
      | none => none
      | some (d, v) => (readObject p kind n d).map fun l => (r.2, v) :: l

/-- A value in the text, without the comma. -/
def valText : Val → Bytes
  | .num v => decDigits v.toNat
  | .str s => ch '"' :: (s ++ [ch '"'])
  | .flag b => if b then bs "true" else bs "false"

def fieldText (f : Bytes × Val) : Bytes := ch '"' :: (f.1 ++ (ch '"' :: ch ':' :: valText f.2))

theorem writeVal_eq (buf k : Bytes) (v : Val) :
    writeVal (encodeKey buf k) v = buf ++ (fieldText (k, v) ++ [ch ',']) := by
  have e1 : bs "\":" = [ch '"', ch ':'] := rfl
  have e2 : bs "\"," = [ch '"', ch ','] := rfl
  cases v with
  | num v => simp [writeVal, encodeKey, addTrailingComma, encodeUInt, fieldText, valText, e1]
  | str s => simp [writeVal, encodeKey, encodeStringValue, fieldText, valText, e1, e2]
  | flag b => cases b <;> simp [writeVal, encodeKey, addTrailingComma, encodeBoolean, fieldText, valText, e1]

def fieldsText : List (Bytes × Val) → Bytes
  | [] => []
  | [f] => fieldText f
  | f :: r => fieldText f ++ ch ',' :: fieldsText r

theorem fieldsText_cons (f g : Bytes × Val) (r : List (Bytes × Val)) :
    fieldsText (f :: g :: r) = fieldText f ++ ch ',' :: fieldsText (g :: r) := rfl

theorem foldl_fields (f : Bytes × Val) (r : List (Bytes × Val)) (buf : Bytes) :
    (f :: r).foldl (fun b f => writeVal (encodeKey b f.1) f.2) buf = buf ++ (fieldsText (f :: r) ++ [ch ',']) := by
  induction r generalizing f buf with
  | nil => rw [List.foldl_cons, List.foldl_nil, writeVal_eq]; rfl
  | cons g r ih =>
    rw [List.foldl_cons, ih g, writeVal_eq, fieldsText_cons]
    simp

theorem writeObject_eq (f : Bytes × Val) (r : List (Bytes × Val)) :
    writeObject (f :: r) = some (ch '{' :: (fieldsText (f :: r) ++ [ch '}'])) := by
  unfold writeObject
  rw [foldl_fields, ← List.append_assoc, removeTrailingComma, List.getLast?_append]
  simp only [encodeByte, List.getLast?_singleton, Option.some_or, if_true, List.dropLast_concat, Option.map_some]
  simp

/-- What is left after one value: `,` or `}` and more; the boolean reader takes one byte more. -/
def afterVal (v : Val) (t : Byte) (rest : Bytes) : Bytes :=
  match v with
  | .flag _ => rest
  | _ => t :: rest

theorem readVal_at (p : Bytes → Option U64) (hp : ReadsDecimal p) (tok : Byte) (last : Bytes) (v : Val)
    (t : Byte) (rest : Bytes) (ht : EndTok t) (hv : ∀ s, v = .str s → ch '"' ∉ s) :
    ∃ d, readVal p { buf := valText v ++ t :: rest, token := tok, lastItem := last } v.kind = some (d, v) ∧
      d.buf = afterVal v t rest ∧ (d.token = t ∨ (d.token = tok ∧ ∀ n, v ≠ .num n)) := by
  cases v with
  | num v =>
    have := C47_uint p hp tok last [] v t rest (by simp) ht
    rw [encodeUInt, List.nil_append] at this
    refine ⟨{ buf := t :: rest, token := t, lastItem := decDigits v.toNat }, ?_, rfl, Or.inl rfl⟩
    simp only [readVal, Val.kind, valText, this]
  | str s =>
    have hs := hv s rfl
    have hnull := checkNull_plain [] (s ++ ch '"' :: (t :: rest)) (by intro c hc; cases hc)
    have hb := stringBody_at tok last [] s (t :: rest) (by simp) hs
    refine ⟨{ buf := t :: rest, token := tok, lastItem := last }, ?_, rfl, Or.inr ⟨rfl, by simp⟩⟩
    have e : valText (.str s) ++ t :: rest = [] ++ ch '"' :: (s ++ ch '"' :: (t :: rest)) := by
      simp [valText]
    unfold readVal Val.kind Decoder.decodeString Decoder.checkNullValue
    simp only [e, hnull, hb]
  | flag b =>
    have h := C47_bool tok last 0 b t rest
    refine ⟨{ buf := rest, token := tok, lastItem := last }, ?_, rfl, Or.inr ⟨rfl, by simp⟩⟩
    have e : valText (.flag b) ++ t :: rest = encodeBoolean (List.replicate 0 (ch ' ')) b ++ t :: rest := by
      cases b <;> rfl
    unfold readVal Val.kind
    simp only [e, h, Option.map_some]

theorem valText_length (v : Val) : 1 ≤ (valText v).length := by
  cases v with
  | num v =>
    obtain ⟨c, r, e, _⟩ := decDigits_cons v.toNat
    simp [valText, e]
  | str s => simp [valText]
  | flag b => cases b <;> decide

theorem fieldsText_length (f : Bytes × Val) (r : List (Bytes × Val)) : 4 ≤ (fieldsText (f :: r)).length := by
  have h : 4 ≤ (fieldText f).length := by
    have := valText_length f.2
    simp [fieldText]; omega
  cases r with
  | nil => exact h
  | cons g r => rw [fieldsText_cons]; simp; omega

theorem readObject_run (p : Bytes → Option U64) (hp : ReadsDecimal p) (kind : Bytes → Kind) :
    ∀ (r : List (Bytes × Val)) (f : Bytes × Val) (n : Nat) (tok : Byte) (last pre : Bytes),
      (∀ g ∈ f :: r, ch '"' ∉ g.1 ∧ kind g.1 = g.2.kind ∧ ∀ s, g.2 = .str s → ch '"' ∉ s) →
      ch '"' ∉ pre → tok ≠ ch '}' → r.length + 2 ≤ n →
      readObject p kind n { buf := pre ++ (fieldsText (f :: r) ++ [ch '}']), token := tok, lastItem := last } =
        some (f :: r) := by
  intro r
  induction r with
  | nil =>
    intro f n tok last pre hf hpre htok hn
    obtain ⟨m, rfl⟩ : ∃ m, n = m + 2 := ⟨n - 2, by simp at hn; omega⟩
    obtain ⟨hk, hkind, hstr⟩ := hf f (by simp)
    have hlen := fieldsText_length f []
    rw [readObject, if_neg (by simp [Decoder.atEnd, htok]; omega)]
    have hkey := C47_key tok last pre f.1 (valText f.2 ++ [ch '}']) hpre hk
    rw [show encodeKey pre f.1 ++ (valText f.2 ++ [ch '}']) = pre ++ (fieldsText [f] ++ [ch '}']) by
      simp [encodeKey, fieldsText, fieldText, show bs "\":" = [ch '"', ch ':'] from rfl]] at hkey
    obtain ⟨d, hd, hbuf, ht⟩ := readVal_at p hp tok last f.2 (ch '}') [] (Or.inr (Or.inr rfl)) hstr
    simp only [hkey, hkind]
    rw [hd]
    simp only
    rw [readObject, if_pos]
    · rfl
    · unfold Decoder.atEnd
      rw [hbuf]
      unfold afterVal
      split <;> simp
  | cons g r ih =>
    intro f n tok last pre hf hpre htok hn
    obtain ⟨m, rfl⟩ : ∃ m, n = m + 1 := ⟨n - 1, by simp at hn; omega⟩
    obtain ⟨hk, hkind, hstr⟩ := hf f (by simp)
    have hlen := fieldsText_length f (g :: r)
    rw [readObject, if_neg (by simp [Decoder.atEnd, htok]; omega)]
    have hkey := C47_key tok last pre f.1 (valText f.2 ++ ch ',' :: (fieldsText (g :: r) ++ [ch '}'])) hpre hk
    rw [show encodeKey pre f.1 ++ (valText f.2 ++ ch ',' :: (fieldsText (g :: r) ++ [ch '}'])) =
        pre ++ (fieldsText (f :: g :: r) ++ [ch '}']) by
      simp [encodeKey, fieldsText_cons, fieldText, show bs "\":" = [ch '"', ch ':'] from rfl]] at hkey
    obtain ⟨d, hd, hbuf, ht⟩ := readVal_at p hp tok last f.2 (ch ',') (fieldsText (g :: r) ++ [ch '}']) (Or.inl rfl) hstr
    simp only [hkey, hkind]
    rw [hd]
    simp only
    have htok' : d.token ≠ ch '}' := by
      rcases ht with ht | ⟨ht, _⟩
      · rw [ht]; decide
      · rw [ht]; exact htok
    obtain ⟨pre', hpre', he⟩ : ∃ pre' : Bytes, ch '"' ∉ pre' ∧ d.buf = pre' ++ (fieldsText (g :: r) ++ [ch '}']) := by
      rw [hbuf]
      unfold afterVal
      split
      · exact ⟨[], by simp, rfl⟩
      · exact ⟨[ch ','], by decide, rfl⟩
    have hih := ih g m d.token d.lastItem pre' (fun x hx => hf x (List.mem_cons_of_mem _ hx)) hpre' htok'
      (by simp at hn ⊢; omega)
    rw [← he] at hih
    rw [hih]
    rfl

/-- C47. Every non-empty object whose keys and string values have no quote character is read back by
the reading client, field for field and in order. -/
theorem C47_object (p : Bytes → Option U64) (hp : ReadsDecimal p) (kind : Bytes → Kind)
    (fields : List (Bytes × Val)) (hne : fields ≠ []) (text : Bytes)
    (hf : ∀ g ∈ fields, ch '"' ∉ g.1 ∧ kind g.1 = g.2.kind ∧ ∀ s, g.2 = .str s → ch '"' ∉ s)
    (ht : writeObject fields = some text) (rounds : Nat) (hr : fields.length + 1 ≤ rounds) :
    readObject p kind rounds (.init text) = some fields := by
  cases fields with
  | nil => exact absurd rfl hne
  | cons f r =>
    rw [writeObject_eq] at ht
    cases ht
    exact readObject_run p hp kind r f rounds 0 [] [ch '{'] hf (by decide) (by decide) (by simp at hr ⊢; omega)

/-- A 64-bit reader for the examples. -/
def parser64 (s : Bytes) : Option U64 := if AllDigits s ∧ s ≠ [] then some (BitVec.ofNat 64 (decVal s)) else none

theorem parser64_reads : ReadsDecimal parser64 where
  digits v := by
    unfold parser64
    rw [if_pos ⟨decDigits_allDigits _, decDigits_ne_nil _⟩, decVal_decDigits]
    simp
  empty := by decide

def exampleKind (k : Bytes) : Kind :=
  if k = bs "age" then .num else if k = bs "name" then .str else .flag

example : writeObject [(bs "name", .str (bs "n, }")), (bs "ok", .flag true), (bs "age", .num 41#64)] =
      some (bs "{\"name\":\"n, }\",\"ok\":true,\"age\":41}") ∧
    readObject parser64 exampleKind 4 (.init (bs "{\"name\":\"n, }\",\"ok\":true,\"age\":41}")) =
      some [(bs "name", .str (bs "n, }")), (bs "ok", .flag true), (bs "age", .num 41#64)] := by decide +kernel

/-! ## C47: base64 -/

/-- What is used about the standard library's unpadded base64: decoding inverts encoding, and the
encoded text has neither quotes nor end tokens. -/
structure Base64Codec (enc : Bytes → Bytes) (dec : Bytes → Option Bytes) : Prop where
  inv : ∀ s, dec (enc s) = some s
  noEnd : ∀ s, ∀ c ∈ enc s, ¬ EndTok c ∧ c ≠ ch '"'
  quote : ∀ s, ch '"' ∈ s → dec s = none
  len32 : ∀ s, s.length = 32 → (enc s).length = 43

/-- Real base64 meets these requirements. -/
theorem base64_real : Base64Codec Base64.encode Base64.decode where
  inv := Base64.decode_encode
  noEnd s c hc := by
    obtain ⟨d, hd, rfl⟩ := Base64.encode_mem s c hc
    have : ∀ d : Fin 64, ¬ EndTok (Base64.charOf d) ∧ Base64.charOf d ≠ ch '"' := by decide +kernel
    exact this ⟨d, hd⟩
  quote s h := Base64.decode_bad s _ h (by decide +kernel)
  len32 s h := by rw [Base64.encode_length, h]

/-- C47. A byte slice written as base64 between quotes is read back; the decoder stands at the end
token after it. The buffer must have the capacity for the encoded text, otherwise the encoder panics. -/
theorem C47_base64 (enc : Bytes → Bytes) (dec : Bytes → Option Bytes) (hb : Base64Codec enc dec)
    (pre s text rest : Bytes) (cap : Nat) (tok : Byte) (last : Bytes) (t : Byte) (ht : EndTok t)
    (hpre : ch '"' ∉ pre) (he : encodeBase64 enc (encodeByte pre (ch '"')) cap s = some text) :
    Decoder.decodeBase64 dec { buf := text ++ ch '"' :: t :: rest, token := tok, lastItem := last } =
      ({ buf := t :: rest, token := t, lastItem := enc s ++ [ch '"'] }, .ok s) := by
  unfold encodeBase64 at he
  split at he
  · cases he
    have hq : ch '"' ∉ enc s := fun h => (hb.noEnd s _ h).2 rfl
    unfold Decoder.decodeBase64
    rw [show encodeByte pre (ch '"') ++ enc s ++ ch '"' :: t :: rest = pre ++ ch '"' :: (enc s ++ ch '"' :: (t :: rest)) by
      simp [encodeByte]]
    rw [trimToString_at tok last pre _ hpre]
    simp only [indexByte_append (enc s) _ _ hq, take_quote, hb.inv]
    rw [findEndToken_at _ (enc s ++ [ch '"']) t rest (by simp) ?_ ht]
    intro c hc
    rcases List.mem_append.mp hc with hc | hc
    · exact (hb.noEnd s c hc).1
    · simp at hc; subst hc; decide
  · cases he

/-- The encoder panics when the capacity is too small. -/
theorem C47_base64_capacity (enc : Bytes → Bytes) (buf : Bytes) (cap : Nat) (s : Bytes) :
    encodeBase64 enc buf cap s = none ↔ cap < buf.length + (enc s).length := by
  unfold encodeBase64
  split <;> simp <;> omega

/-- C47, minified decoder: from the opening quote to after the closing quote. -/
theorem C47_base64_minified (enc : Bytes → Bytes) (dec : Bytes → Option Bytes) (hb : Base64Codec enc dec)
    (s text rest : Bytes) (cap : Nat) (tok : Byte) (last : Bytes)
    (he : encodeBase64 enc [ch '"'] cap s = some text) :
    Decoder.minBase64 dec { buf := text ++ ch '"' :: rest, token := tok, lastItem := last } =
      some ({ buf := rest, token := tok, lastItem := last }, .ok s) := by
  unfold encodeBase64 at he
  split at he
  · cases he
    have hq : ch '"' ∉ enc s := fun h => (hb.noEnd s _ h).2 rfl
    unfold Decoder.minBase64
    rw [show Decoder.offset { buf := [ch '"'] ++ enc s ++ ch '"' :: rest, token := tok, lastItem := last } 1 =
      some { buf := enc s ++ ch '"' :: rest, token := tok, lastItem := last } by simp [Decoder.offset, sliceFrom]]
    simp only [Option.bind_eq_bind, Option.bind_some, indexByte_append (enc s) _ _ hq, take_quote, hb.inv]
    have : Decoder.offset { buf := enc s ++ ch '"' :: rest, token := tok, lastItem := last } ((enc s).length + 1) =
        some { buf := rest, token := tok, lastItem := last } := by
      unfold Decoder.offset sliceFrom
      rw [if_pos (by simp)]
      simp only [Option.map_some, drop_quote]
    rw [this]
    rfl
  · cases he

/-- Quoted 43-byte texts separated by commas. -/
def quotedList (enc : Bytes → Bytes) : List Bytes → Bytes
  | [] => []
  | [a] => ch '"' :: (enc a ++ [ch '"'])
  | a :: r => ch '"' :: (enc a ++ ch '"' :: ch ',' :: quotedList enc r)

theorem quotedList_cons (enc : Bytes → Bytes) (a b : Bytes) (r : List Bytes) :
    quotedList enc (a :: b :: r) = ch '"' :: (enc a ++ ch '"' :: ch ',' :: quotedList enc (b :: r)) := rfl

theorem encode32_eq (enc : Bytes → Bytes) (buf a : Bytes) (r : List Bytes) :
    encode32 enc buf (a :: r) = some (buf ++ quotedList enc (a :: r)) := by
  have h : ∀ (r : List Bytes) (a buf : Bytes),
      (a :: r).foldl (fun b a => b ++ [ch '"'] ++ enc a ++ bs "\",") buf = buf ++ (quotedList enc (a :: r) ++ [ch ',']) := by
    intro r
    induction r with
    | nil =>
      intro a buf
      simp [quotedList, show bs "\"," = [ch '"', ch ','] from rfl]
    | cons b r ih =>
      intro a buf
      rw [List.foldl_cons, ih b, quotedList_cons]
      simp [show bs "\"," = [ch '"', ch ','] from rfl]
  unfold encode32
  rw [h, removeTrailingComma, ← List.append_assoc, List.getLast?_append]
  simp

theorem slice32_run (enc : Bytes → Bytes) (dec : Bytes → Option Bytes) (hb : Base64Codec enc dec) :
    ∀ (r : List Bytes) (a : Bytes) (n : Nat) (acc : List Bytes) (tok : Byte) (last pre rest : Bytes),
      (∀ x ∈ a :: r, x.length = 32) → tok ≠ ch ']' → ch '"' ∉ pre → r.length + 2 ≤ n →
      ∃ l, slice32Loop dec n { buf := pre ++ (quotedList enc (a :: r) ++ ch ']' :: rest), token := tok, lastItem := last } acc =
        .done { buf := ch ']' :: rest, token := 0, lastItem := l } (.ok (acc ++ a :: r)) := by
  intro r
  induction r with
  | nil =>
    intro a n acc tok last pre rest hl ht hpre hn
    obtain ⟨m, rfl⟩ : ∃ m, n = m + 2 := ⟨n - 2, by simp at hn; omega⟩
    have h43 := hb.len32 a (hl a (by simp))
    refine ⟨[ch '"'], ?_⟩
    rw [slice32Loop, if_neg ht]
    rw [show quotedList enc [a] ++ ch ']' :: rest = ch '"' :: (enc a ++ ch '"' :: ch ']' :: rest) by simp [quotedList]]
    rw [trimToString_at tok last pre _ hpre]
    simp only
    rw [if_neg (by simp; omega), ← h43, List.take_left' rfl, hb.inv, List.drop_left' rfl]
    simp only
    rw [findEndToken_at _ [ch '"'] (ch ']') rest rfl (by decide) (Or.inr (Or.inl rfl)), slice32Loop, if_pos rfl]
  | cons b r ih =>
    intro a n acc tok last pre rest hl ht hpre hn
    obtain ⟨m, rfl⟩ : ∃ m, n = m + 1 := ⟨n - 1, by simp at hn; omega⟩
    have h43 := hb.len32 a (hl a (by simp))
    obtain ⟨l, hih⟩ := ih b m (acc ++ [a]) (ch ',') [ch '"'] [ch ','] rest (fun x hx => hl x (List.mem_cons_of_mem _ hx))
      (by decide) (by decide) (by simp at hn ⊢; omega)
    refine ⟨l, ?_⟩
    rw [slice32Loop, if_neg ht]
    rw [show quotedList enc (a :: b :: r) ++ ch ']' :: rest =
      ch '"' :: (enc a ++ ([ch '"'] ++ ch ',' :: (quotedList enc (b :: r) ++ ch ']' :: rest))) by simp [quotedList_cons]]
    rw [trimToString_at tok last pre _ hpre]
    simp only
    rw [if_neg (by simp; omega), ← h43, List.take_left' rfl, hb.inv, List.drop_left' rfl]
    simp only
    rw [findEndToken_at _ [ch '"'] (ch ',') _ rfl (by decide) (Or.inl rfl)]
    rw [List.singleton_append] at hih
    rw [hih]
    simp

/-- C47. A non-empty list of 32-byte values written by the encoder between `[` and `]` is read back
by the ordinary decoder, which stands at the `]`. -/
theorem C47_list32 (enc : Bytes → Bytes) (dec : Bytes → Option Bytes) (hb : Base64Codec enc dec)
    (pre rest text : Bytes) (tok : Byte) (last : Bytes) (s : List Bytes) (hs : s ≠ []) (hl : ∀ x ∈ s, x.length = 32)
    (hpre : ch '[' ∉ pre) (htok : tok ≠ ch ']') (he : encode32 enc (encodeByte pre (ch '[')) s = some text)
    (rounds : Nat) (hr : s.length + 1 ≤ rounds) :
    ∃ l, Decoder.decode32 dec rounds { buf := text ++ ch ']' :: rest, token := tok, lastItem := last } =
      .done { buf := ch ']' :: rest, token := 0, lastItem := l } (.ok s) := by
  cases s with
  | nil => exact absurd rfl hs
  | cons a r =>
    rw [encode32_eq] at he
    cases he
    obtain ⟨l, h⟩ := slice32_run enc dec hb r a rounds [] tok last [] rest hl htok (by simp) (by simp at hr ⊢; omega)
    refine ⟨l, ?_⟩
    unfold Decoder.decode32
    rw [show encodeByte pre (ch '[') ++ quotedList enc (a :: r) ++ ch ']' :: rest =
      pre ++ ch '[' :: (quotedList enc (a :: r) ++ ch ']' :: rest) by simp [encodeByte]]
    simp only [indexByte_append pre _ _ hpre, drop_quote]
    simpa using h

/-- C196 fails for lists of 32-byte values with the minified decoder: started at the opening bracket
it skips the first base64 character and takes the closing quote in, so every non-empty list is
refused. -/
theorem C196_list32_minified_violated (enc : Bytes → Bytes) (dec : Bytes → Option Bytes) (hb : Base64Codec enc dec)
    (rest text : Bytes) (tok : Byte) (last : Bytes) (s : List Bytes) (hs : s ≠ []) (hl : ∀ x ∈ s, x.length = 32)
    (he : encode32 enc [ch '['] s = some text) (rounds : Nat) :
    ∃ d, Decoder.min32 dec (rounds + 1) { buf := text ++ ch ']' :: rest, token := tok, lastItem := last } =
      .done d (.error .sliceCorrupted) := by
  cases s with
  | nil => exact absurd rfl hs
  | cons a r =>
    rw [encode32_eq] at he
    cases he
    have h43 := hb.len32 a (hl a (by simp))
    obtain ⟨tl, htl⟩ : ∃ tl, quotedList enc (a :: r) ++ ch ']' :: rest = ch '"' :: (enc a ++ ch '"' :: tl) := by
      cases r with
      | nil => exact ⟨ch ']' :: rest, by simp [quotedList]⟩
      | cons b r => exact ⟨ch ',' :: (quotedList enc (b :: r) ++ ch ']' :: rest), by simp [quotedList_cons]⟩
    obtain ⟨c, e, hc⟩ : ∃ c e, enc a = c :: e := by
      cases h : enc a with
      | nil => rw [h] at h43; simp at h43
      | cons c e => exact ⟨c, e, rfl⟩
    have hlen : e.length = 42 := by rw [hc] at h43; simpa using h43
    have hcne : c ≠ ch ']' := by
      intro h
      exact (hb.noEnd a c (by rw [hc]; simp)).1 (Or.inr (Or.inl h))
    refine ⟨{ buf := e ++ ch '"' :: tl, token := tok, lastItem := last }, ?_⟩
    unfold Decoder.min32
    rw [show Decoder.offset { buf := [ch '['] ++ quotedList enc (a :: r) ++ ch ']' :: rest, token := tok, lastItem := last } 1 =
      some { buf := ch '"' :: c :: (e ++ ch '"' :: tl), token := tok, lastItem := last } by
        rw [List.append_assoc, htl, hc]; simp [Decoder.offset, sliceFrom]]
    simp only
    rw [minSlice32Loop]
    simp only [List.getElem?_cons_succ, List.getElem?_cons_zero, List.drop_succ_cons, List.drop_zero]
    rw [if_neg hcne, if_neg (by simp; omega)]
    have hq : dec ((e ++ ch '"' :: tl).take 43) = none := by
      apply hb.quote
      rw [List.append_cons, List.take_left' (by simp; omega)]
      simp
    rw [hq]

/-- C196, the part that holds of lists of 32-byte values with the minified decoder: it reads the values, all
of them and in order, and stands after the bracket, if the text starts one byte early, if exactly two
bytes precede every value (the second no closing bracket) and one byte precedes the closing bracket.
Missing: the encoder writes no such text (refuted above). -/
theorem C196_list32_minified_partial (enc : Bytes → Bytes) (dec : Bytes → Option Bytes) (hb : Base64Codec enc dec)
    (o z x y : Byte) (rest : Bytes) (tok : Byte) (last : Bytes) (s : List Bytes) (hy : y ≠ ch ']')
    (hl : ∀ a ∈ s, a.length = 32) (rounds : Nat) (hr : s.length < rounds) :
    Decoder.min32 dec rounds { buf := o :: (s.flatMap (fun a => x :: y :: enc a) ++ z :: ch ']' :: rest), token := tok, lastItem := last } =
      .done { buf := rest, token := tok, lastItem := last } (.ok s) := by
  have key : ∀ (s acc : List Bytes) (rounds : Nat), (∀ a ∈ s, a.length = 32) → s.length < rounds →
      minSlice32Loop dec rounds { buf := s.flatMap (fun a => x :: y :: enc a) ++ z :: ch ']' :: rest, token := tok, lastItem := last } acc =
        .done { buf := rest, token := tok, lastItem := last } (.ok (acc ++ s)) := by
    intro s
    induction s with
    | nil =>
      intro acc rounds _ hr
      obtain ⟨n, rfl⟩ : ∃ n, rounds = n + 1 := ⟨rounds - 1, by simp at hr; omega⟩
      rw [minSlice32Loop]
      simp
    | cons a s ih =>
      intro acc rounds hl hr
      obtain ⟨n, rfl⟩ : ∃ n, rounds = n + 1 := ⟨rounds - 1, by simp at hr; omega⟩
      have h43 := hb.len32 a (hl a (by simp))
      have ih' := ih (acc ++ [a]) n (fun b hb => hl b (by simp [hb])) (by simp at hr; omega)
      rw [List.flatMap_cons, minSlice32Loop]
      simp only [List.cons_append, List.getElem?_cons_succ, List.getElem?_cons_zero, List.drop_succ_cons,
        List.drop_zero, List.append_assoc]
      rw [if_neg hy, if_neg (by simp; omega), List.take_left' h43, hb.inv, List.drop_left' h43]
      simp only
      rw [ih', List.append_assoc]
      rfl
  unfold Decoder.min32 Decoder.offset sliceFrom
  simp only [List.length_cons, Nat.le_add_left, if_true, Option.map_some, List.drop_succ_cons, List.drop_zero]
  simpa using key s [] rounds hl hr

example : ∃ s : List Bytes, s.length = 2 ∧ (∀ a ∈ s, a.length = 32) ∧ ch '"' ≠ ch ']' :=
  ⟨[List.replicate 32 1#8, List.replicate 32 2#8], by decide⟩

/-- C278 fails for the minified decoder: a string that is cut off is accepted without its last byte, and
the text is used up. -/
theorem C278_minified_string_cut_violated (d : Decoder) (s : Bytes) (c : Byte) (h : d.buf = s ++ [c])
    (hq : ch '"' ∉ d.buf) : d.minString = some ({ d with buf := [] }, s) := by
  have hi : indexByte d.buf (ch '"') = none := (indexByte_none_iff _ _).2 hq
  rw [Decoder.minString, hi]
  simp [h]

example : Decoder.minString (.init (bs "nam")) = some (.init [], bs "na") := by decide +kernel

/-! ## C87: the codec wrapper caches the text -/

/-- C87 fails: an error of the object's `ToJSON` is never reported by `Marshal`, for every object. -/
theorem C87_error_dropped_violated {S E} (toJSON : S → Bytes → Option Bytes × Option E) (c : Codec S) :
    (c.marshal toJSON).2.2 = none := by
  unfold Codec.marshal
  split <;> rfl

/-- C87 fails: after a first `Marshal` that produced text, changing the object does not change what
`Marshal` returns; `MarshalTo` does follow the object. -/
theorem C87_stale_violated {S E} (toJSON : S → Bytes → Option Bytes × Option E) (c : Codec S) (text : Bytes) (o : S)
    (h : c.payload = none) (ht : (toJSON c.obj []).1 = some text) :
    let c1 := (c.marshal toJSON).1
    (Codec.marshal toJSON { c1 with obj := o }).2.1 = some text ∧
    (Codec.marshalTo toJSON { c1 with obj := o } []).1 = (toJSON o []).1 := by
  unfold Codec.marshal
  simp [h, ht, Codec.marshalTo]

/-- C87. On an unchanged object `Marshal` gives the object's text, and keeps giving it.
Missing: objects that change and objects that cannot be encoded (refuted:
`C87_error_dropped_violated`, `C87_stale_violated`, `C87_refused_text_violated`). -/
theorem C87_marshal_partial {S E} (toJSON : S → Bytes → Option Bytes × Option E) (c : Codec S)
    (h : c.payload = none) :
    (c.marshal toJSON).2.1 = (toJSON c.obj []).1 ∧
    (((c.marshal toJSON).1).marshal toJSON).2.1 = (toJSON c.obj []).1 := by
  unfold Codec.marshal
  rw [h]
  simp only [true_and]
  split
  · rename_i p hp; exact hp.symm
  · rfl

/-- C87 fails: text that the object refused is still what `Marshal` returns afterwards. -/
theorem C87_refused_text_violated {S E} (fromJSON : S → Bytes → S × Option E)
    (toJSON : S → Bytes → Option Bytes × Option E) (c : Codec S) (data : Bytes) (e : E) (o : S)
    (h : fromJSON c.obj data = (o, some e)) :
    (c.unmarshal fromJSON data).2 = some e ∧
    ((c.unmarshal fromJSON data).1.marshal toJSON).2.1 = some data := by
  unfold Codec.unmarshal Codec.marshal
  rw [h]
  simp

example : (Codec.marshal (E := Unit) (fun (n : Nat) b => (some (b ++ decDigits n), none)) { obj := 5 }).2.1 =
    some (bs "5") := by decide +kernel

theorem exText64 : encodeBase64 Base64.encode [ch '"'] 20 [1, 2, 3] = some (bs "\"AQID") := by decide +kernel

example := C47_base64 Base64.encode Base64.decode base64_real [] [1, 2, 3] (bs "\"AQID") [] 20 0 [] (ch '}') (by decide) (by decide) (by decide +kernel)
example := C47_base64_minified Base64.encode Base64.decode base64_real [1, 2, 3] (bs "\"AQID") (bs ",") 20 0 [] exText64
example := C47_list32 Base64.encode Base64.decode base64_real [] (bs ",") _ 0 [] [List.replicate 32 1#8, List.replicate 32 2#8] (by decide)
  (by decide) (by decide) (by decide)
  (Option.some_get (show (encode32 Base64.encode (encodeByte [] (ch '[')) [List.replicate 32 1#8, List.replicate 32 2#8]).isSome
    by decide +kernel)).symm 3 (by decide)
example := C196_list32_minified_violated Base64.encode Base64.decode base64_real (bs ",") _ 0 [] [List.replicate 32 1#8, List.replicate 32 2#8]
  (by decide) (by decide)
  (Option.some_get (show (encode32 Base64.encode [ch '['] [List.replicate 32 1#8, List.replicate 32 2#8]).isSome by decide +kernel)).symm 3
example := C87_stale_violated (E := Unit) (fun (n : Nat) b => (some (b ++ decDigits n), none)) { obj := 5 } (bs "5") 6 rfl (by decide +kernel)
example := C87_marshal_partial (E := Unit) (fun (n : Nat) b => (some (b ++ decDigits n), none)) { obj := 5 } rfl

end Memar.Json
