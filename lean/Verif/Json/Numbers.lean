import Verif.Json.Props2

/-!
# Which texts are read as whole numbers (C294)

`strconv.ParseInt` of the standard library, as `json/decode.go:219-228`, `json/decode-minified.go:85-106` use it, and what the decoders make
of every text with it.
-/

namespace Memar.Json
open Memar Decimal

/-- `strconv.ParseInt(s, 10, w)` of the standard library (json/decode.go:222, json/decode-minified.go:89,101): a sign or none, at least one
digit, and a value in the range of `w` bits. -/
def parseInt (w : Nat) (s : Bytes) : Option (BitVec w) :=
  let num (t : Bytes) : Option Nat := if t = [] ∨ ¬ AllDigits t then none else some (decVal t)
  let signed : Option Int :=
    match s with
    | [] => none
    | c :: t =>
      if c = ch '-' then (num t).map fun (n : Nat) => -(n : Int)
      else if c = ch '+' then (num t).map fun (n : Nat) => (n : Int)
      else (num s).map fun (n : Nat) => (n : Int)
  signed.bind fun v => if -2 ^ (w - 1) ≤ v ∧ v < 2 ^ (w - 1) then some (BitVec.ofInt w v) else none

/-- Specification: a sign or none, and digits; the number they denote. -/
def Spec.Numeral (s : Bytes) (v : Int) : Prop :=
  ∃ ds, ds ≠ [] ∧ AllDigits ds ∧ (((s = ds ∨ s = ch '+' :: ds) ∧ v = decVal ds) ∨ (s = ch '-' :: ds ∧ v = -(decVal ds : Int)))

/-- Specification (RFC 8259, section 6): a whole number of JSON: a minus sign or none, and digits without a needless zero in front. -/
def Spec.JsonInt (s : Bytes) (v : Int) : Prop :=
  ∃ ds, Canonical ds ∧ ((s = ds ∧ v = decVal ds) ∨ (s = ch '-' :: ds ∧ v = -(decVal ds : Int)))

/-- Specification (RFC 8259, section 2): white space. -/
def Spec.White (c : Byte) : Prop := c = ch ' ' ∨ c = ch '\t' ∨ c = ch '\n' ∨ c = ch '\r'

theorem ofInt_toInt_range (w : Nat) (hw : 0 < w) (v : Int) (h1 : -2 ^ (w - 1) ≤ v) (h2 : v < 2 ^ (w - 1)) :
    (BitVec.ofInt w v).toInt = v := by
  rw [BitVec.toInt_ofInt]
  have e : (2 : Nat) ^ w = 2 * 2 ^ (w - 1) := by
    rw [← Nat.pow_succ']; congr 1; omega
  have e2 : ((2 ^ (w - 1) : Nat) : Int) = 2 ^ (w - 1) := by simp
  rw [Int.bmod_eq_of_le] <;> rw [e] <;> omega

theorem digit_signs (c : Byte) (h : IsDigit c) : c ≠ ch '-' ∧ c ≠ ch '+' := by
  constructor <;> (intro e; subst e; revert h; decide)

theorem parseInt_iff (w : Nat) (hw : 0 < w) (s : Bytes) (b : BitVec w) : parseInt w s = some b ↔ Spec.Numeral s b.toInt := by
  have key : ∀ v : Int, ((if -2 ^ (w - 1) ≤ v ∧ v < 2 ^ (w - 1) then some (BitVec.ofInt w v) else none) = some b) ↔ v = b.toInt := by
    intro v
    constructor
    · intro h
      split at h
      · rename_i hr
        cases h
        exact (ofInt_toInt_range w hw v hr.1 hr.2).symm
      · cases h
    · rintro rfl
      have h1 := BitVec.toInt_lt (x := b)
      have h2 := BitVec.le_toInt (x := b)
      rw [if_pos ⟨h2, h1⟩, BitVec.ofInt_toInt]
  match s with
  | [] =>
    constructor
    · intro h; cases h
    · rintro ⟨ds, h, _, (⟨(h1 | h1), _⟩ | ⟨h1, _⟩)⟩
      · exact absurd h1.symm h
      · cases h1
      · cases h1
  | c :: t =>
    by_cases hm : c = ch '-'
    · subst hm
      unfold parseInt
      simp only [if_true]
      by_cases ht : t = [] ∨ ¬ AllDigits t
      · rw [if_pos ht]
        constructor
        · intro h; cases h
        · rintro ⟨ds, h, ha, (⟨(h1 | h1), _⟩ | ⟨h1, _⟩)⟩
          · rw [← h1] at ha; exact absurd rfl (digit_signs _ (ha _ (by simp))).1
          · exact absurd (List.cons.inj h1).1 (by decide)
          · rw [(List.cons.inj h1).2] at ht
            rcases ht with ht | ht
            · exact absurd ht h
            · exact absurd ha ht
      · rw [if_neg ht]
        simp only [Option.map_some, Option.bind_some]
        rw [key]
        have h1 : t ≠ [] := fun h => ht (Or.inl h)
        have h2 : AllDigits t := Classical.byContradiction fun h => ht (Or.inr h)
        constructor
        · intro h; exact ⟨t, h1, h2, Or.inr ⟨rfl, h.symm⟩⟩
        · rintro ⟨ds, h, ha, (⟨(e | e), hv⟩ | ⟨e, hv⟩)⟩
          · rw [← e] at ha; exact absurd rfl (digit_signs _ (ha _ (by simp))).1
          · exact absurd (List.cons.inj e).1 (by decide)
          · rw [(List.cons.inj e).2, hv]
    · by_cases hp : c = ch '+'
      · subst hp
        unfold parseInt
        simp only [if_neg hm, if_true]
        by_cases ht : t = [] ∨ ¬ AllDigits t
        · rw [if_pos ht]
          constructor
          · intro h; cases h
          · rintro ⟨ds, h, ha, (⟨(h1 | h1), _⟩ | ⟨h1, _⟩)⟩
            · rw [← h1] at ha; exact absurd rfl (digit_signs _ (ha _ (by simp))).2
            · rw [(List.cons.inj h1).2] at ht
              rcases ht with ht | ht
              · exact absurd ht h
              · exact absurd ha ht
            · exact absurd (List.cons.inj h1).1 hm
        · rw [if_neg ht]
          simp only [Option.map_some, Option.bind_some]
          rw [key]
          have h1 : t ≠ [] := fun h => ht (Or.inl h)
          have h2 : AllDigits t := Classical.byContradiction fun h => ht (Or.inr h)
          constructor
          · intro h; exact ⟨t, h1, h2, Or.inl ⟨Or.inr rfl, h.symm⟩⟩
          · rintro ⟨ds, h, ha, (⟨(e | e), hv⟩ | ⟨e, hv⟩)⟩
            · rw [← e] at ha; exact absurd rfl (digit_signs _ (ha _ (by simp))).2
            · rw [(List.cons.inj e).2, hv]
            · exact absurd (List.cons.inj e).1 hm
      · unfold parseInt
        simp only [if_neg hm, if_neg hp]
        by_cases ht : c :: t = [] ∨ ¬ AllDigits (c :: t)
        · rw [if_pos ht]
          constructor
          · intro h; cases h
          · rintro ⟨ds, h, ha, (⟨(h1 | h1), _⟩ | ⟨h1, _⟩)⟩
            · rw [← h1] at ha
              rcases ht with ht | ht
              · cases ht
              · exact absurd ha ht
            · exact absurd (List.cons.inj h1).1 hp
            · exact absurd (List.cons.inj h1).1 hm
        · rw [if_neg ht]
          simp only [Option.map_some, Option.bind_some]
          rw [key]
          have h2 : AllDigits (c :: t) := Classical.byContradiction fun h => ht (Or.inr h)
          constructor
          · intro h; exact ⟨c :: t, by simp, h2, Or.inl ⟨Or.inl rfl, h.symm⟩⟩
          · rintro ⟨ds, h, ha, (⟨(e | e), hv⟩ | ⟨e, hv⟩)⟩
            · rw [e, hv]
            · exact absurd (List.cons.inj e).1 hp
            · exact absurd (List.cons.inj e).1 hm

theorem minInt_at {w} (p : Bytes → Option (BitVec w)) (e : Err) (tok : Byte) (last item : Bytes) (t : Byte) (rest : Bytes)
    (hi : ∀ c ∈ item, ¬ EndTok c) (ht : EndTok t) :
    Decoder.minInt p e { buf := item ++ t :: rest, token := tok, lastItem := last } =
      ({ buf := t :: rest, token := t, lastItem := item }, match p item with | some v => .ok v | none => .error e) := by
  unfold Decoder.minInt
  rw [findEndToken_at _ item t rest rfl hi ht]
  simp only
  cases p item <;> rfl

/-- **C294** the part that holds for the minified decoder: the text up to the next end token is read as a number exactly when it is a sign or
none and digits, and the number is the one they denote; any other text is refused. Missing: signs and zeros that JSON does not allow, see
`C294_not_json_violated`, white space, see `C294_space_violated`, and texts that are cut off, see `C294_stale_violated`. -/
theorem C294_minified_partial (w : Nat) (hw : 0 < w) (e : Err) (tok : Byte) (last item : Bytes) (t : Byte) (rest : Bytes)
    (hi : ∀ c ∈ item, ¬ EndTok c) (ht : EndTok t) :
    let r := Decoder.minInt (parseInt w) e { buf := item ++ t :: rest, token := tok, lastItem := last }
    (∀ b, r.2 = .ok b ↔ Spec.Numeral item b.toInt) ∧ (∀ x, r.2 = .error x ↔ x = e ∧ ¬ ∃ b : BitVec w, Spec.Numeral item b.toInt) ∧
    r.1.buf = t :: rest ∧ r.1.token = t := by
  simp only [minInt_at (parseInt w) e tok last item t rest hi ht, and_self, and_true]
  constructor
  · intro b
    rw [← parseInt_iff w hw]
    cases parseInt w item <;> simp
  · intro x
    cases hp : parseInt w item with
    | none =>
      simp only [Except.error.injEq]
      constructor
      · rintro rfl
        refine ⟨rfl, ?_⟩
        rintro ⟨b, hb⟩
        rw [(parseInt_iff w hw item b).mpr hb] at hp
        cases hp
      · rintro ⟨rfl, _⟩; rfl
    | some v =>
      simp only [reduceCtorEq, false_iff]
      rintro ⟨_, h⟩
      exact h ⟨v, (parseInt_iff w hw item v).mp hp⟩

example : (Decoder.minInt (parseInt 64) .integerCorrupted (.init (bs "-12,"))).2 = .ok (-12#64) ∧
    (Decoder.minInt (parseInt 64) .integerCorrupted (.init (bs "1.5,"))).2 = .error .integerCorrupted ∧
    (Decoder.minInt (parseInt 32) .integerCorrupted (.init (bs "2147483648,"))).2 = .error .integerCorrupted := by decide +kernel

/-- **C294** the part that holds: every whole number of JSON in range that stands before an end token is read as its value, by the minified
decoder also below 0 and by the ordinary one from 0 up. Missing: see `C294_minified_partial` and `C294_other_member_violated`; negative numbers
and the ordinary decoder, see `C196_int_violated`. -/
theorem C294_json_partial (w : Nat) (hw : 0 < w) (e : Err) (tok : Byte) (last item : Bytes) (b : BitVec w) (t : Byte) (rest : Bytes)
    (hi : Spec.JsonInt item b.toInt) (ht : EndTok t) :
    (Decoder.minInt (parseInt w) e { buf := item ++ t :: rest, token := tok, lastItem := last }).2 = .ok b ∧
    (0 ≤ b.toInt → AllDigits item →
      (Decoder.decodeInt (parseInt w) { buf := item ++ t :: rest, token := tok, lastItem := last }).2 = .ok b) := by
  have hn : Spec.Numeral item b.toInt := by
    obtain ⟨ds, hc, (⟨h1, h2⟩ | ⟨h1, h2⟩)⟩ := hi
    · exact ⟨ds, hc.1, hc.2.1, Or.inl ⟨Or.inl h1, h2⟩⟩
    · exact ⟨ds, hc.1, hc.2.1, Or.inr ⟨h1, h2⟩⟩
  have hne : ∀ c ∈ item, ¬ EndTok c := by
    obtain ⟨ds, _, ha, (⟨h1 | h1, _⟩ | ⟨h1, _⟩)⟩ := hn
    · rw [h1]; exact fun c hc => not_endTok_digit c (ha c hc)
    · rw [h1]
      intro c hc
      rcases List.mem_cons.mp hc with rfl | hc
      · decide
      · exact not_endTok_digit c (ha c hc)
    · rw [h1]
      intro c hc
      rcases List.mem_cons.mp hc with rfl | hc
      · decide
      · exact not_endTok_digit c (ha c hc)
  have h1 : ∀ e, (Decoder.minInt (parseInt w) e { buf := item ++ t :: rest, token := tok, lastItem := last }).2 = .ok b :=
    fun e => ((C294_minified_partial w hw e tok last item t rest hne ht).1 b).mpr hn
  refine ⟨h1 e, fun _ ha => ?_⟩
  unfold Decoder.decodeInt Decoder.trimToDigit
  have : dropTo digit (item ++ t :: rest) = item ++ t :: rest := by
    obtain ⟨ds, hd, _, h⟩ := hn
    cases item with
    | nil => rcases h with ⟨h | h, _⟩ | ⟨h, _⟩ <;> simp_all
    | cons c r => exact dropTo_append digit [] c _ (by simp) ((digit_iff c).mpr (ha c (by simp)))
  simp only [this]
  exact h1 _

example : Spec.JsonInt (bs "-12") (-12#64 : U64).toInt ∧ Spec.JsonInt (bs "0") (0#64 : U64).toInt :=
  ⟨⟨bs "12", (by unfold Canonical; decide +kernel), Or.inr (by decide +kernel)⟩, ⟨bs "0", (by unfold Canonical; decide +kernel), Or.inl (by decide +kernel)⟩⟩

theorem decVal_zeros (k : Nat) (ds : Bytes) : decVal (List.replicate k (ch '0') ++ ds) = decVal ds := by
  unfold decVal
  rw [decFrom_append]
  congr 1
  induction k with
  | zero => rfl
  | succ k ih => rw [List.replicate_succ, decFrom_cons]; exact ih

/-- C294 violated: digits after any number of needless zeros, and after a plus sign, are read as numbers by the minified decoder, and those
after zeros also by the ordinary one. None of these texts is a whole number of JSON. -/
theorem C294_not_json_violated (e : Err) (tok : Byte) (last : Bytes) (n k : Nat) (hn : n < 2 ^ 63) (hk : 0 < k) (t : Byte) (rest : Bytes)
    (ht : EndTok t) :
    let zeros := List.replicate k (ch '0') ++ decDigits n
    let plus := ch '+' :: decDigits n
    let d := fun item : Bytes => ({ buf := item ++ t :: rest, token := tok, lastItem := last } : Decoder)
    (¬ ∃ v, Spec.JsonInt zeros v) ∧ (¬ ∃ v, Spec.JsonInt plus v) ∧
    (Decoder.minInt (parseInt 64) e (d zeros)).2 = .ok (BitVec.ofNat 64 n) ∧
    (Decoder.minInt (parseInt 64) e (d plus)).2 = .ok (BitVec.ofNat 64 n) ∧
    (Decoder.decodeInt (parseInt 64) (d zeros)).2 = .ok (BitVec.ofNat 64 n) := by
  intro zeros plus d
  have hz : AllDigits zeros := by
    intro c hc
    rcases List.mem_append.mp hc with hc | hc
    · rw [(List.mem_replicate.mp hc).2]; decide
    · exact decDigits_allDigits n c hc
  have hzn : zeros ≠ [] := by
    intro h
    exact decDigits_ne_nil n (List.append_eq_nil_iff.mp h).2
  have hzl : 2 ≤ zeros.length := by
    have : (decDigits n).length ≠ 0 := fun h => decDigits_ne_nil n (List.length_eq_zero_iff.mp h)
    simp only [zeros, List.length_append, List.length_replicate]; omega
  have hzh : zeros.head? = some 48#8 := by
    obtain ⟨j, rfl⟩ : ∃ j, k = j + 1 := ⟨k - 1, by omega⟩
    rfl
  have hb : (BitVec.ofNat 64 n).toInt = n := by
    rw [BitVec.toInt_eq_toNat_of_lt (by rw [BitVec.toNat_ofNat]; omega), BitVec.toNat_ofNat]
    omega
  have hne : ∀ c ∈ zeros, ¬ EndTok c := fun c hc => not_endTok_digit c (hz c hc)
  have h3 : ∀ e, (Decoder.minInt (parseInt 64) e (d zeros)).2 = .ok (BitVec.ofNat 64 n) := fun e =>
    ((C294_minified_partial 64 (by omega) e tok last zeros t rest hne ht).1 _).mpr
      ⟨zeros, hzn, hz, Or.inl ⟨Or.inl rfl, by rw [hb, decVal_zeros, decVal_decDigits]⟩⟩
  refine ⟨?_, ?_, h3 e, ?_, ?_⟩
  · rintro ⟨v, ds, hc, (⟨h1, _⟩ | ⟨h1, _⟩)⟩
    · rw [← h1] at hc
      rcases hc.2.2 with h | h
      · omega
      · exact h hzh
    · rw [h1] at hzh; exact absurd (Option.some.inj hzh) (by decide)
  · rintro ⟨v, ds, hc, (⟨h1, _⟩ | ⟨h1, _⟩)⟩
    · rw [← h1] at hc
      exact absurd rfl (digit_signs _ (hc.2.1 (ch '+') (by simp [plus]))).2
    · exact absurd (List.cons.inj h1).1 (by decide)
  · refine ((C294_minified_partial 64 (by omega) e tok last plus t rest ?_ ht).1 _).mpr
      ⟨decDigits n, decDigits_ne_nil n, decDigits_allDigits n, Or.inl ⟨Or.inr rfl, by rw [hb, decVal_decDigits]⟩⟩
    intro c hc
    rcases List.mem_cons.mp hc with rfl | hc
    · decide
    · exact decDigits_noEnd n c hc
  · unfold Decoder.decodeInt Decoder.trimToDigit
    have : dropTo digit (d zeros).buf = (d zeros).buf := by
      show dropTo digit (zeros ++ t :: rest) = zeros ++ t :: rest
      cases hq : zeros with
      | nil => exact absurd hq hzn
      | cons c r => exact dropTo_append digit [] c _ (by simp) ((digit_iff c).mpr (hz c (by rw [hq]; simp)))
    rw [this]
    exact h3 _

example : (Decoder.decodeInt (parseInt 64) (.init (bs "007}"))).2 = .ok 7#64 ∧
    (Decoder.minInt (parseInt 64) .integerCorrupted (.init (bs "+7}"))).2 = .ok 7#64 := by decide +kernel

/-- C294 violated: a value that is no number is not refused by the ordinary decoder: whatever stands there, and whatever members follow it, the
next digits anywhere in the document are read as its value. -/
theorem C294_other_member_violated (tok : Byte) (last pre ds : Bytes) (b : U64) (t : Byte) (rest : Bytes) (hpre : ∀ c ∈ pre, ¬ IsDigit c)
    (hd : ds ≠ []) (ha : AllDigits ds) (hv : b.toInt = decVal ds) (ht : EndTok t) :
    Decoder.decodeInt (parseInt 64) { buf := pre ++ (ds ++ t :: rest), token := tok, lastItem := last } =
      ({ buf := t :: rest, token := t, lastItem := ds }, .ok b) := by
  unfold Decoder.decodeInt Decoder.trimToDigit
  have : dropTo digit (pre ++ (ds ++ t :: rest)) = ds ++ t :: rest := by
    cases ds with
    | nil => exact absurd rfl hd
    | cons c r =>
      exact dropTo_append digit pre c _ (fun x hx => by
        cases h : digit x with
        | false => rfl
        | true => exact absurd ((digit_iff x).mp h) (hpre x hx)) ((digit_iff c).mpr (ha c (by simp)))
  simp only [this]
  rw [minInt_at _ _ _ _ _ _ _ (fun c hc => not_endTok_digit c (ha c hc)) ht, (parseInt_iff 64 (by omega) ds b).mpr ⟨ds, hd, ha, Or.inl ⟨Or.inl rfl, hv⟩⟩]

/-- `{"age":null,"id":5}`: the age is 5. -/
example : (Decoder.init (bs "{\"age\":null,\"id\":5}")).decodeKey.2 = bs "age" ∧
    (Decoder.decodeInt (parseInt 64) (Decoder.init (bs "{\"age\":null,\"id\":5}")).decodeKey.1).2 = .ok 5#64 := by decide +kernel

/-- C294 violated: a number with white space between it and the end token is refused by both decoders, so that the last number of an object
that is written on several lines is never read. -/
theorem C294_space_violated (w : Nat) (hw : 0 < w) (e : Err) (tok : Byte) (last : Bytes) (n : Nat) (white : Bytes) (hne : white ≠ [])
    (h : ∀ c ∈ white, Spec.White c) (t : Byte) (rest : Bytes) (ht : EndTok t) :
    let d : Decoder := { buf := decDigits n ++ white ++ t :: rest, token := tok, lastItem := last }
    (Decoder.minInt (parseInt w) e d).2 = .error e ∧ (Decoder.decodeInt (parseInt w) d).2 = .error .integerCorrupted := by
  intro d
  have hw1 : ∀ c, Spec.White c → ¬ EndTok c ∧ ¬ IsDigit c := by
    intro c hc
    rcases hc with rfl | rfl | rfl | rfl <;> decide
  have hi : ∀ c ∈ decDigits n ++ white, ¬ EndTok c := by
    intro c hc
    rcases List.mem_append.mp hc with hc | hc
    · exact decDigits_noEnd n c hc
    · exact (hw1 c (h c hc)).1
  have hno : ¬ ∃ b : BitVec w, Spec.Numeral (decDigits n ++ white) b.toInt := by
    rintro ⟨b, ds, hd, ha, hh⟩
    obtain ⟨x, hx⟩ : ∃ x, x ∈ white := List.exists_mem_of_ne_nil _ hne
    have hxw := h x hx
    have hm : x ∈ decDigits n ++ white := List.mem_append.mpr (Or.inr hx)
    have : x ∈ ds := by
      rcases hh with ⟨hh | hh, _⟩ | ⟨hh, _⟩ <;> rw [hh] at hm
      · exact hm
      · rcases List.mem_cons.mp hm with rfl | hm
        · exact absurd hxw (by unfold Spec.White; decide)
        · exact hm
      · rcases List.mem_cons.mp hm with rfl | hm
        · exact absurd hxw (by unfold Spec.White; decide)
        · exact hm
    exact (hw1 x hxw).2 (ha x this)
  have h1 : ∀ e, (Decoder.minInt (parseInt w) e d).2 = .error e := fun e =>
    ((C294_minified_partial w hw e tok last (decDigits n ++ white) t rest hi ht).2.1 e).mpr ⟨rfl, hno⟩
  refine ⟨h1 e, ?_⟩
  unfold Decoder.decodeInt Decoder.trimToDigit
  have : dropTo digit d.buf = d.buf := by
    obtain ⟨c, r, e, hc⟩ := decDigits_cons n
    show dropTo digit (decDigits n ++ white ++ t :: rest) = decDigits n ++ white ++ t :: rest
    rw [e]
    exact dropTo_append digit [] c _ (by simp) ((digit_iff c).mpr hc)
  rw [this]
  exact h1 _

example : (Decoder.decodeInt (parseInt 64) (.init (bs "{\n  \"id\": 5\n}"))).2 = .error .integerCorrupted := by decide +kernel

/-- C294 violated: in a text that is cut off, without an end token, both decoders answer the number that was read last, whatever the text is. -/
theorem C294_stale_violated {w} (p : Bytes → Option (BitVec w)) (e : Err) (d : Decoder) (v : BitVec w) (hv : p d.lastItem = some v)
    (hb : ∀ c ∈ d.buf, ¬ EndTok c) :
    (Decoder.minInt p e d).2 = .ok v ∧ (Decoder.decodeInt p d).2 = .ok v := by
  have key : ∀ (d : Decoder) (e : Err), p d.lastItem = some v → (∀ c ∈ d.buf, ¬ EndTok c) → (Decoder.minInt p e d).2 = .ok v := by
    intro d e hv hb
    unfold Decoder.minInt
    have : d.findEndToken = d := by unfold Decoder.findEndToken; rw [findEnd_none _ hb]
    simp only [this, hv]
  refine ⟨key d e hv hb, key _ _ hv ?_⟩
  intro c hc
  apply hb
  unfold Decoder.trimToDigit dropTo at hc
  simp only at hc
  split at hc
  · exact hc
  · exact (List.dropWhile_sublist _).subset hc

/-- `{"a":5,"b":9`: after the number 5, the number of `b` is read as 5. -/
example : (let d := (Decoder.init (bs "{\"a\":5,\"b\":9")).decodeKey.1
           let d := (d.decodeInt (parseInt 64)).1
           let d := d.decodeKey.1
           d.buf = bs "9" ∧ parseInt 64 d.lastItem = some 5#64 ∧ (d.decodeInt (parseInt 64)).2 = .ok 5#64) := by decide +kernel

end Memar.Json
