import Verif.Json.More
import Verif.Json.StreamProps

/-!
# Properties of the remaining functions of package json (C162)
-/

namespace Memar.Json
open Memar Decimal

/-! ## 32-bit signed numbers -/

/-- The meaning of `strconv.ParseInt(_, 10, 32)` on the texts of whole numbers: in range it answers the number, otherwise
an error. -/
structure ReadsInt32 (p : Bytes → Option (BitVec 32)) : Prop where
  fits : ∀ i : Int, -2147483648 ≤ i → i < 2147483648 → p (intDigits i) = some (BitVec.ofInt 32 i)
  beyond : ∀ i : Int, i < -2147483648 ∨ 2147483648 ≤ i → p (intDigits i) = none

/-- A reader of signed decimal notation with the range of `int32`. -/
def goParseInt32 (s : Bytes) : Option (BitVec 32) :=
  match s with
  | [] => none
  | c :: r =>
    if c = ch '-' then
      if AllDigits r ∧ r ≠ [] ∧ decVal r ≤ 2147483648 then some (BitVec.ofInt 32 (-(decVal r))) else none
    else if AllDigits (c :: r) ∧ decVal (c :: r) < 2147483648 then some (BitVec.ofInt 32 (decVal (c :: r)))
    else none

theorem goParseInt32_digits (n : Nat) : goParseInt32 (decDigits n) =
    if n < 2147483648 then some (BitVec.ofInt 32 n) else none := by
  obtain ⟨c, r, e, hc⟩ := decDigits_cons n
  have ha := decDigits_allDigits n
  have hv := decVal_decDigits n
  rw [e] at ha hv ⊢
  unfold goParseInt32
  simp only
  rw [if_neg (by intro h; subst h; revert hc; decide), hv]
  by_cases h : n < 2147483648
  · rw [if_pos ⟨ha, h⟩, if_pos h]
  · rw [if_neg (fun x => h x.2), if_neg h]

/-- The hypotheses on `ParseInt` can be met. -/
theorem goParseInt32_reads : ReadsInt32 goParseInt32 where
  fits i h1 h2 := by
    unfold intDigits
    split
    · unfold goParseInt32
      simp only [if_true]
      rw [if_pos ⟨decDigits_allDigits _, decDigits_ne_nil _, by rw [decVal_decDigits]; omega⟩, decVal_decDigits]
      rw [show -((i.natAbs : Nat) : Int) = i by omega]
    · rw [goParseInt32_digits, if_pos (by omega)]
      rw [show ((i.natAbs : Nat) : Int) = i by omega]
  beyond i h := by
    unfold intDigits
    split
    · unfold goParseInt32
      simp only [if_true]
      rw [if_neg]
      rw [decVal_decDigits]; omega
    · rw [goParseInt32_digits, if_neg (by omega)]

/-- **C162**: of the texts the encoder of signed numbers writes, the 32-bit reader of the minified decoder reads exactly the numbers
that fit into 32 bits, as themselves, and refuses all others; either way it stands at the end token after the number. -/
theorem C162_int32 (p : Bytes → Option (BitVec 32)) (hp : ReadsInt32 p) (tok : Byte) (last : Bytes) (i : U64)
    (t : Byte) (rest : Bytes) (ht : EndTok t) :
    let d := Decoder.minInt p .integerCorrupted { buf := encodeInt64 [] i ++ t :: rest, token := tok, lastItem := last }
    d.1 = { buf := t :: rest, token := t, lastItem := intDigits i.toInt } ∧
    (-2147483648 ≤ i.toInt ∧ i.toInt < 2147483648 → ∃ v : BitVec 32, d.2 = .ok v ∧ v.toInt = i.toInt) ∧
    (¬ (-2147483648 ≤ i.toInt ∧ i.toInt < 2147483648) → d.2 = .error .integerCorrupted) := by
  intro d
  have hd : d = (match p (intDigits i.toInt) with
      | some v => ({ buf := t :: rest, token := t, lastItem := intDigits i.toInt }, .ok v)
      | none => ({ buf := t :: rest, token := t, lastItem := intDigits i.toInt }, .error .integerCorrupted)) := by
    show Decoder.minInt _ _ _ = _
    unfold Decoder.minInt encodeInt64
    rw [findEndToken_at _ (intDigits i.toInt) t rest (by simp) (intDigits_noEnd _) ht]
    dsimp only
    cases p (intDigits i.toInt) <;> rfl
  refine ⟨?_, fun h => ?_, fun h => ?_⟩
  · rw [hd]; cases p (intDigits i.toInt) <;> rfl
  · rw [hd, hp.fits _ h.1 h.2]
    refine ⟨_, rfl, ?_⟩
    rw [BitVec.toInt_ofInt, Int.bmod_def]
    omega
  · rw [hd, hp.beyond _ (by omega)]

/-- Case: the smallest number, and one beyond it. -/
example : (Decoder.minInt goParseInt32 .integerCorrupted (.init (bs "-2147483648,"))).2 = .ok 0x80000000#32 ∧
    (Decoder.minInt goParseInt32 .integerCorrupted (.init (bs "-2147483649,"))).2 = .error .integerCorrupted := by
  decide +kernel

/-! ## slices of numbers as base64 -/

/-- The number a little endian group of bytes stands for. -/
def littleValue : Bytes → Nat
  | [] => 0
  | b :: r => b.toNat + 256 * littleValue r

theorem littleBytes_length (k n : Nat) : (littleBytes k n).length = k := by
  induction k generalizing n with
  | zero => rfl
  | succ k ih => simp [littleBytes, ih]

theorem littleValue_littleBytes (k n : Nat) (h : n < 256 ^ k) : littleValue (littleBytes k n) = n := by
  induction k generalizing n with
  | zero => simp at h; subst h; rfl
  | succ k ih =>
    rw [littleBytes, littleValue, ih _ (by rw [Nat.pow_succ] at h; exact Nat.div_lt_of_lt_mul (by omega))]
    simp only [BitVec.toNat_ofNat]
    omega

theorem memory_length (little : Bool) (k : Nat) (s : List Nat) : (memory little k s).length = k * s.length := by
  induction s with
  | nil => rfl
  | cons n r ih =>
    rw [memory, List.flatMap_cons, List.length_append]
    rw [memory] at ih
    rw [ih]
    cases little <;> simp [littleBytes_length, Nat.mul_add, Nat.add_comm]

/-- A reader of such bytes that does not know the writer: groups of `k` bytes, each little endian. -/
def groups (k : Nat) : Nat → Bytes → List Nat
  | 0, _ => []
  | m + 1, s => littleValue (s.take k) :: groups k m (s.drop k)

theorem groups_memory (k : Nat) (s : List Nat) (h : ∀ n ∈ s, n < 256 ^ k) : groups k s.length (memory true k s) = s := by
  induction s with
  | nil => rfl
  | cons n r ih =>
    have e : memory true k (n :: r) = littleBytes k n ++ memory true k r := by simp [memory]
    have hl := littleBytes_length k n
    rw [e]
    rw [List.length_cons, groups, List.take_append_of_le_length (by omega), List.take_of_length_le (by omega),
      List.drop_append_of_le_length (by omega), List.drop_of_length_le (by omega), List.nil_append,
      ih (fun x hx => h x (by simp [hx])), littleValue_littleBytes k n (h n (by simp))]

/-- **C162**: numbers of 16 and of 32 bits written as base64 on a little endian processor and read back as bytes by the decoder stand
there in groups of two and of four bytes, in order, the lowest byte first. The encoder panics exactly when the buffer has no
capacity for the text. -/
theorem C162_numbers_base64 (enc : Bytes → Bytes) (dec : Bytes → Option Bytes) (hb : Base64Codec enc dec)
    (s16 : List U16) (s32 : List U32) (cap : Nat) (tok : Byte) (last : Bytes) (rest : Bytes) :
    (∀ text, encodeUInt16Base64 true enc [ch '"'] cap s16 = some text →
      ∃ data, Decoder.minBase64 dec { buf := text ++ ch '"' :: rest, token := tok, lastItem := last } =
          some ({ buf := rest, token := tok, lastItem := last }, .ok data) ∧
        data.length = 2 * s16.length ∧ groups 2 s16.length data = s16.map (·.toNat)) ∧
    (∀ text, encodeUInt32Base64 true enc [ch '"'] cap s32 = some text →
      ∃ data, Decoder.minBase64 dec { buf := text ++ ch '"' :: rest, token := tok, lastItem := last } =
          some ({ buf := rest, token := tok, lastItem := last }, .ok data) ∧
        data.length = 4 * s32.length ∧ groups 4 s32.length data = s32.map (·.toNat)) := by
  refine ⟨fun text h => ⟨_, C47_base64_minified enc dec hb _ text rest cap tok last h, ?_, ?_⟩,
    fun text h => ⟨_, C47_base64_minified enc dec hb _ text rest cap tok last h, ?_, ?_⟩⟩
  · rw [memory_length, List.length_map]
  · have := groups_memory 2 (s16.map (·.toNat)) (by
      intro n hn
      obtain ⟨v, _, rfl⟩ := List.mem_map.mp hn
      have := v.isLt; omega)
    rwa [List.length_map] at this
  · rw [memory_length, List.length_map]
  · have := groups_memory 4 (s32.map (·.toNat)) (by
      intro n hn
      obtain ⟨v, _, rfl⟩ := List.mem_map.mp hn
      have := v.isLt; omega)
    rwa [List.length_map] at this

example := (C162_numbers_base64 Base64.encode Base64.decode base64_real [0x0102#16, 3#16] [7#32] 20 0 [] (bs ",")).1 (bs "\"AgEDAA")
  (by decide +kernel)

/-- **C162**: the encoders of numbers as base64 append to the buffer, and panic exactly when its capacity is too small for the text. -/
theorem C162_numbers_base64_room (little : Bool) (enc : Bytes → Bytes) (hlen : ∀ s, (enc s).length = (s.length * 8 + 5) / 6)
    (buf : Bytes) (cap : Nat) (s16 : List U16) (s32 : List U32) :
    (encodeUInt16Base64 little enc buf cap s16 = none ↔ cap < buf.length + (s16.length * 16 + 5) / 6) ∧
    (encodeUInt32Base64 little enc buf cap s32 = none ↔ cap < buf.length + (s32.length * 32 + 5) / 6) ∧
    (∀ text, encodeUInt16Base64 little enc buf cap s16 = some text → ∃ t, text = buf ++ t) ∧
    (∀ text, encodeUInt32Base64 little enc buf cap s32 = some text → ∃ t, text = buf ++ t) := by
  refine ⟨?_, ?_, fun text h => ?_, fun text h => ?_⟩
  · rw [encodeUInt16Base64, C47_base64_capacity, hlen, memory_length, List.length_map]; omega
  · rw [encodeUInt32Base64, C47_base64_capacity, hlen, memory_length, List.length_map]; omega
  · rw [encodeUInt16Base64, encodeBase64] at h; split at h
    · cases h; exact ⟨_, rfl⟩
    · cases h
  · rw [encodeUInt32Base64, encodeBase64] at h; split at h
    · cases h; exact ⟨_, rfl⟩
    · cases h

/-- Real base64 has that length. -/
example : ∀ s, (Base64.encode s).length = (s.length * 8 + 5) / 6 := fun s => by rw [Base64.encode_length]; omega

/-- Case: two numbers, little endian. -/
example : encodeUInt16Base64 true Base64.encode (bs "\"") 20 [0x0102#16, 3#16] = some (bs "\"AgEDAA") ∧
    groups 2 2 [2#8, 1#8, 3#8, 0#8] = [0x0102, 3] := by decide +kernel

/-- **C244** violated between processors: a slice of 16-bit numbers one of which has two different bytes is written as two different texts
on a little endian and on a big endian processor, so the text does not determine the numbers. -/
theorem C244_byte_order_violated (enc : Bytes → Bytes) (dec : Bytes → Option Bytes) (hb : Base64Codec enc dec) (buf : Bytes)
    (cap : Nat) (s : List U16) (h : ∃ v ∈ s, v.toNat % 256 ≠ v.toNat / 256) (t1 t2 : Bytes)
    (h1 : encodeUInt16Base64 true enc buf cap s = some t1) (h2 : encodeUInt16Base64 false enc buf cap s = some t2) :
    t1 ≠ t2 := by
  intro he
  rw [encodeUInt16Base64, encodeBase64] at h1 h2
  rw [Option.ite_none_right_eq_some] at h1 h2
  replace h1 := h1.2
  replace h2 := h2.2
  cases h1; cases h2
  have e1 : enc (memory true 2 (s.map (·.toNat))) = enc (memory false 2 (s.map (·.toNat))) := List.append_cancel_left he
  have e2 : memory true 2 (s.map (·.toNat)) = memory false 2 (s.map (·.toNat)) := by
    have := congrArg dec e1
    rw [hb.inv, hb.inv] at this
    exact Option.some.inj this
  clear he e1
  obtain ⟨v, hv, hne⟩ := h
  induction s with
  | nil => simp at hv
  | cons x r ih =>
    simp only [List.map_cons, memory, List.flatMap_cons, if_true, if_false, Bool.false_eq_true] at e2
    have l1 := littleBytes_length 2 x.toNat
    have := List.append_inj e2 (by simp)
    rcases List.mem_cons.mp hv with rfl | hv
    · have h3 := this.1
      simp only [littleBytes, List.reverse_cons, List.reverse_nil, List.nil_append, List.cons_append, List.cons.injEq] at h3
      have h4 := congrArg BitVec.toNat h3.1
      simp only [BitVec.toNat_ofNat] at h4
      have := v.isLt
      omega
    · exact ih (by simpa [memory] using this.2) hv

/-- Case: the number 1. -/
example : encodeUInt16Base64 true Base64.encode [] 8 [1#16] = some (bs "AQA") ∧
    encodeUInt16Base64 false Base64.encode [] 8 [1#16] = some (bs "AAE") := by decide +kernel

/-! ## floating point numbers -/

/-- **C162**: a floating point number the encoder wrote is read back by the minified decoder whenever the parser reads the formatter's
texts, provided the text has no end token in it, which holds for all numbers (texts of digits, sign, point and exponent). -/
theorem C162_float_round_trip {F : Type} (format : F → Bytes) (p : Bytes → Option F) (f : F) (hstd : p (format f) = some f)
    (hx : ∀ c ∈ format f, ¬ EndTok c) (tok : Byte) (last rest : Bytes) (t : Byte) (ht : EndTok t) :
    Decoder.minFloat p { buf := encodeFloat format [] f ++ t :: rest, token := tok, lastItem := last } =
      ({ buf := t :: rest, token := t, lastItem := format f }, .ok f) := by
  rw [encodeFloat, List.nil_append, C142_float_minified p tok last (format f) rest t ht hx, hstd]

/-- Case: a format of tenths. -/
example : let fmt : Nat → Bytes := fun n => decDigits (n / 10) ++ ch '.' :: decDigits (n % 10)
    let p : Bytes → Option Nat := fun s => if s = bs "3.5" then some 35 else none
    encodeFloat fmt (bs "[") 35 = bs "[3.5" ∧ p (fmt 35) = some 35 ∧
    (Decoder.minFloat p (.init (encodeFloat fmt [] 35 ++ bs "]"))).2 = .ok 35 := by decide +kernel

/-- The texts `strconv` gives the values that are no numbers. -/
def notNumbers : List Bytes := [bs "NaN", bs "+Inf", bs "-Inf"]

/-- The first bytes a JSON value may have (RFC 8259, 3). -/
def JsonStart (c : Byte) : Prop := c ∈ bs "{[\"tfn-0123456789"

/-- **C244** violated for the values that are no numbers: NaN and plus infinity are written as texts that no JSON value starts with,
and minus infinity as a sign without a digit, without an error. -/
theorem C244_not_numbers_violated {F : Type} (format : F → Bytes) (f : F) (h : format f ∈ notNumbers) :
    ∃ c r, encodeFloat format [] f = c :: r ∧
      (¬ JsonStart c ∨ (c = ch '-' ∧ ∃ g r', r = g :: r' ∧ ¬ IsDigit g)) := by
  rw [encodeFloat, List.nil_append]
  simp only [notNumbers, List.mem_cons, List.not_mem_nil, or_false] at h
  rcases h with h | h | h <;> rw [h]
  · exact ⟨ch 'N', bs "aN", by decide +kernel, .inl (by unfold JsonStart; decide +kernel)⟩
  · exact ⟨ch '+', bs "Inf", by decide +kernel, .inl (by unfold JsonStart; decide +kernel)⟩
  · exact ⟨ch '-', bs "Inf", by decide +kernel, .inr ⟨rfl, ch 'I', bs "nf", by decide +kernel, by decide +kernel⟩⟩

example := C244_not_numbers_violated (fun b : Bool => if b then bs "NaN" else bs "1.5") true (by decide +kernel)

/-! ## the runtime functions -/

/-- **C162**: encoding at run time answers the standard library's text exactly when it reports no error, and never a text together with
an error. -/
theorem C162_runtime_marshal {S : Type} (std : S → Option Bytes × Bool) (s : S) :
    ((marshalRuntime std s).2 = (std s).2) ∧
    ((marshalRuntime std s).2 = true → (marshalRuntime std s).1 = none) ∧
    ((marshalRuntime std s).2 = false → (marshalRuntime std s).1 = (std s).1) := by
  unfold marshalRuntime
  rcases std s with ⟨p, _ | _⟩ <;> simp

/-- **C162**: an object encoded at run time and decoded at run time is the same object when the standard library has that law. -/
theorem C162_runtime_round_trip {S : Type} (m : S → Option Bytes × Bool) (u : Bytes → S → S × Bool) (s old : S) (p : Bytes)
    (hlaw : ∀ q, m s = (some q, false) → u q old = (s, false)) (hm : marshalRuntime m s = (some p, false)) :
    unmarshalRuntime u p old = (s, false) := by
  unfold marshalRuntime at hm
  rcases e : m s with ⟨q, _ | _⟩
  · rw [e] at hm
    simp only [Prod.mk.injEq, and_true] at hm
    exact hlaw p (by rw [e, hm])
  · rw [e] at hm; simp at hm

/-- Case: numbers. -/
example : let m : Nat → Option Bytes × Bool := fun n => (some (decDigits n), false)
    let u : Bytes → Nat → Nat × Bool := fun b old => if AllDigits b then (decVal b, false) else (old, true)
    marshalRuntime m 52 = (some (bs "52"), false) ∧ unmarshalRuntime u (bs "52") 7 = (52, false) ∧
    unmarshalRuntime u (bs "5x") 7 = (7, true) := by decide +kernel

/-! ## the length a codec tells -/

/-- **C244**: the length told after initialisation is the object's.
Missing: the byte order, NaN and infinities, and the length after a change (refuted:
`C244_byte_order_violated`, `C244_not_numbers_violated`, `C244_len_violated`). -/
theorem C244_len_partial {S : Type} (lenAsJSON : S → Nat) (o : S) : codecLen (initCodec lenAsJSON o) = lenAsJSON o := rfl

/-- **C244** violated for the length after a change: whatever is decoded into the object or changed in it afterwards, the codec goes on
telling the length of the first state. -/
theorem C244_len_violated {S : Type} (lenAsJSON : S → Nat) (fromJSON : S → Bytes → S × Option Unit)
    (toJSON : S → Bytes → Option Bytes × Option Unit) (o : S) (h : List (Call S)) :
    codecLen (h.foldl (fun c x => Call.run fromJSON toJSON x c) (initCodec lenAsJSON o)) = lenAsJSON o := by
  have : ∀ c : Codec S × Nat, (h.foldl (fun c x => Call.run fromJSON toJSON x c) c).2 = c.2 := by
    induction h with
    | nil => intro c; rfl
    | cons x r ih =>
      intro c
      rw [List.foldl_cons, ih]
      rcases c with ⟨c, n⟩
      cases x <;> rfl
  exact this _

/-- Case: an object of 2 digits read from a text of 3. -/
example : codecLen (Call.run (fun _ b => (decVal b, none)) (fun n b => (some (b ++ decDigits n), none)) (.unmarshal (bs "123"))
      (initCodec (fun n : Nat => (decDigits n).length) 52)) = 2 ∧
    (Call.run (fun _ b => (decVal b, none)) (fun n b => (some (b ++ decDigits n), none)) (.unmarshal (bs "123"))
      (initCodec (fun n : Nat => (decDigits n).length) 52)).1.obj = 123 := by decide +kernel

/-- **C162**: forgetting the token makes a decoder with a value left read on, also after the end of an object; nothing else changes. -/
theorem C162_reset_token (d : Decoder) :
    d.resetToken.atEnd = decide (d.buf.length < 3) ∧ d.resetToken.buf = d.buf ∧ d.resetToken.lastItem = d.lastItem := by
  refine ⟨?_, rfl, rfl⟩
  unfold Decoder.atEnd Decoder.resetToken
  simp [ch]

example : let d : Decoder := { buf := bs "\"k\":1}", token := ch '}' }
    d.atEnd = true ∧ d.resetToken.atEnd = false := by decide +kernel

end Memar.Json
