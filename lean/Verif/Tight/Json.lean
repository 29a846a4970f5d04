import Verif.Json.Props2

/-!
# C47, C86: raw texts, members the reader does not know, `null`, and the exact set of texts that panic
-/

namespace Memar.Json
open Memar Decimal

/-- A text without quotes and commas. -/
def NoStop (a : Bytes) : Prop := ∀ c ∈ a, c ≠ ch '"' ∧ c ≠ ch ','

theorem checkNull_none_iff (z : Bool) (b : Bytes) :
    checkNull z b = none ↔ ∃ a r, b = a ++ ch 'n' :: r ∧ r.length < 3 ∧ NoStop a := by
  induction b generalizing z with
  | nil =>
    constructor
    · intro h; simp [checkNull] at h
    · rintro ⟨a, r, e, _⟩; simp at e
  | cons c b ih =>
    constructor
    · intro h
      rw [checkNull] at h
      split at h
      · rename_i hc
        split at h
        · rename_i hl; exact ⟨[], b, by rw [hc]; rfl, hl, fun c h => by simp at h⟩
        · obtain ⟨a, r, e, hl, hn⟩ := (ih _).mp h
          refine ⟨c :: a, r, by rw [e]; rfl, hl, ?_⟩
          intro x hx
          rcases List.mem_cons.mp hx with e | e
          · rw [e, hc]; decide
          · exact hn x e
      · split at h
        · cases h
        · split at h
          · cases h
          · rename_i h1 h2
            obtain ⟨a, r, e, hl, hn⟩ := (ih _).mp h
            refine ⟨c :: a, r, by rw [e]; rfl, hl, ?_⟩
            intro x hx
            rcases List.mem_cons.mp hx with e | e
            · rw [e]; exact ⟨h1, h2⟩
            · exact hn x e
    · rintro ⟨a, r, e, hl, hn⟩
      cases a with
      | nil =>
        injection e with e1 e2
        rw [checkNull, if_pos e1, e2, if_pos hl]
      | cons x a =>
        injection e with e1 e2
        subst e1
        have hx := hn c (by simp)
        have ih' : ∀ z, checkNull z b = none := fun z =>
          (ih z).mpr ⟨a, r, e2, hl, fun y hy => hn y (by simp [hy])⟩
        rw [checkNull, if_neg hx.1, if_neg hx.2, ih', ih']
        split
        · split <;> rfl
        · rfl

/-- C278 violated, exactly: reading a string, by the copying and by the sharing decoder, panics on precisely the
texts with an `n` among the last three bytes and neither a quote nor a comma before it. -/
theorem C278_string_panic_exact_violated (d : Decoder) :
    (d.decodeString = none ↔ ∃ a r, d.buf = a ++ ch 'n' :: r ∧ r.length < 3 ∧ NoStop a) ∧
    (d.unsafeString = none ↔ ∃ a r, d.buf = a ++ ch 'n' :: r ∧ r.length < 3 ∧ NoStop a) := by
  constructor
  · rw [← show checkNull false d.buf = none ↔ _ from checkNull_none_iff false d.buf]
    unfold Decoder.decodeString Decoder.checkNullValue
    cases h : checkNull false d.buf with
    | none => simp
    | some z => cases z <;> simp
  · rw [← show checkNull false d.buf = none ↔ _ from checkNull_none_iff false d.buf]
    unfold Decoder.unsafeString Decoder.checkNullValue
    cases h : checkNull false d.buf with
    | none => simp
    | some z => cases z <;> simp

example : Decoder.decodeString (.init (bs " man}")) = none ∧ Decoder.decodeString (.init (bs ",man}")) ≠ none ∧
    Decoder.unsafeString (.init (bs " an")) = none := by decide +kernel

theorem checkNull_true (b rest : Bytes) (hb : NoStop b) (hl : 3 ≤ rest.length) (z : Bool) (h : z = true) :
    checkNull z (b ++ ch ',' :: rest) = some true := by
  induction b generalizing z with
  | nil => rw [List.nil_append, checkNull, if_neg (by decide), if_neg (by decide), if_pos rfl, h]
  | cons c b ih =>
    have hc := hb c (by simp)
    have hb' : NoStop b := fun x hx => hb x (by simp [hx])
    rw [List.cons_append, checkNull, if_neg hc.1, if_neg hc.2, ih hb' z h]
    split
    · rw [if_neg (by simp; omega)]
      exact ih hb' _ (by rw [h]; rfl)
    · rfl

theorem checkNull_finds (a b rest : Bytes) (ha : NoStop a) (hb : NoStop b) (hl : 3 ≤ rest.length) (z : Bool) :
    checkNull z (a ++ (bs "null" ++ (b ++ ch ',' :: rest))) = some true := by
  induction a generalizing z with
  | nil =>
    show checkNull z (ch 'n' :: (bs "ull" ++ (b ++ ch ',' :: rest))) = _
    rw [checkNull, if_pos rfl, if_neg (by simp [bs]), List.take_left' (by decide +kernel)]
    have : bs "ull" ++ (b ++ ch ',' :: rest) = (bs "ull" ++ b) ++ ch ',' :: rest := by simp
    rw [this]
    refine checkNull_true _ rest ?_ hl _ (by simp)
    intro c hc
    rcases List.mem_append.mp hc with e | e
    · exact (by decide +kernel : ∀ c ∈ bs "ull", c ≠ ch '"' ∧ c ≠ ch ',') c e
    · exact hb c e
  | cons c a ih =>
    have hc := ha c (by simp)
    have ha' : NoStop a := fun x hx => ha x (by simp [hx])
    rw [List.cons_append, checkNull, if_neg hc.1, if_neg hc.2, ih ha' z]
    split
    · rw [if_neg (by simp; omega)]; exact ih ha' _
    · rfl

/-- C278 violated for values that only contain `null`: whatever stands around the four letters before the next comma, the
string decoders answer the empty string without an error and consume nothing. -/
theorem C278_null_anywhere_violated (tok : Byte) (last a b rest : Bytes)
    (ha : ∀ c ∈ a, c ≠ ch '"' ∧ c ≠ ch ',') (hb : ∀ c ∈ b, c ≠ ch '"' ∧ c ≠ ch ',') (hl : 3 ≤ rest.length) :
    let d : Decoder := { buf := a ++ (bs "null" ++ (b ++ ch ',' :: rest)), token := tok, lastItem := last }
    d.decodeString = some (d, .ok []) ∧ d.unsafeString = some (d, .ok []) := by
  intro d
  have h : d.checkNullValue = some true := checkNull_finds a b rest ha hb hl false
  constructor
  · unfold Decoder.decodeString; rw [h]
  · unfold Decoder.unsafeString; rw [h]

example : Decoder.unsafeString (.init (bs " 1nullification ,\"a\"")) =
    some (.init (bs " 1nullification ,\"a\""), .ok []) :=
  (C278_null_anywhere_violated 0 [] (bs " 1") (bs "ification ") (bs "\"a\"") (by decide +kernel) (by decide +kernel)
    (by decide)).2

/-- C47. A text written raw between quotes is read back by both decoders, as one written with its quotes is. -/
theorem C47_raw_string (tok : Byte) (last pre s rest : Bytes) (hpre : Plain pre) (hs : ch '"' ∉ s) :
    let d : Decoder :=
      { buf := encodeByte (encodeString (encodeByte pre (ch '"')) s) (ch '"') ++ rest, token := tok, lastItem := last }
    d.decodeString = some ({ d with buf := rest }, .ok s) ∧ d.unsafeString = some ({ d with buf := rest }, .ok s) := by
  intro d
  have hb : d.buf = pre ++ ch '"' :: (s ++ ch '"' :: rest) := by
    simp [d, encodeByte, encodeString]
  have h : d.checkNullValue = some false := by
    unfold Decoder.checkNullValue; rw [hb]; exact checkNull_plain pre _ hpre
  have hq : ch '"' ∉ pre := fun hc => (hpre _ hc).1 rfl
  have body : d.stringBody = ({ d with buf := rest }, .ok s) := by
    unfold Decoder.stringBody Decoder.trimToStringStart
    rw [hb, indexByte_append _ _ _ hq]
    dsimp only
    have e : (pre ++ ch '"' :: (s ++ ch '"' :: rest)).drop (pre.length + 1) = s ++ ch '"' :: rest := by
      rw [List.drop_append]; simp
    rw [e, indexByte_append _ _ _ hs]
    dsimp only
    rw [List.take_left' rfl]
    simp [List.drop_append]
  constructor
  · unfold Decoder.decodeString; rw [h]; dsimp only; rw [body]
  · unfold Decoder.unsafeString; rw [h]; dsimp only; rw [body]

example : Decoder.decodeString (.init (encodeByte (encodeString (encodeByte (bs " ") (ch '"')) (bs "ab")) (ch '"'))) =
    some ({ buf := [] }, .ok (bs "ab")) := by decide +kernel

/-- C196. A member the reader does not know is passed over, if its value has no comma or closing bracket: the decoder
stands at the end token after it, and the next member is read as if the unknown one were not there. -/
theorem C196_unknown_member (tok : Byte) (last value k rest : Bytes) (t : Byte) (ht : EndTok t)
    (hv : ∀ c ∈ value, ¬ EndTok c) (hk : ch '"' ∉ k) :
    let d : Decoder := { buf := value ++ t :: rest, token := tok, lastItem := last }
    d.notFoundKey = { buf := t :: rest, token := t, lastItem := value } ∧
    ∀ more, rest = encodeKey [] k ++ more → (d.notFoundKey.decodeKey).2 = k ∧ (d.notFoundKey.decodeKey).1.buf = more := by
  intro d
  have e : d.notFoundKey = { buf := t :: rest, token := t, lastItem := value } :=
    findEndToken_at d value t rest rfl hv ht
  refine ⟨e, ?_⟩
  intro more hm
  have hq : ch '"' ∉ [t] := by
    intro hc
    rw [List.mem_singleton] at hc
    subst hc
    exact absurd ht (by decide)
  have := C47_key t value [t] k more hq hk
  have hbuf : encodeKey [t] k ++ more = t :: rest := by rw [hm]; simp [encodeKey]
  rw [hbuf] at this
  rw [e, this]
  exact ⟨rfl, rfl⟩

example := C196_unknown_member 0 [] (bs "12") (bs "b") (bs "\"b\":3}") (ch ',') (by decide) (by decide +kernel) (by decide +kernel)

/-- C196 violated for unknown members: if the value is a string with an end token in it, the decoder stops inside the
string, at the token, and takes the token for the one after the member. -/
theorem C196_unknown_member_violated (tok : Byte) (last s1 s2 rest : Bytes) (t : Byte) (ht : EndTok t)
    (hv : ∀ c ∈ s1, ¬ EndTok c) :
    let d : Decoder := { buf := ch '"' :: (s1 ++ t :: s2) ++ ch '"' :: rest, token := tok, lastItem := last }
    d.notFoundKey = { buf := t :: s2 ++ ch '"' :: rest, token := t, lastItem := ch '"' :: s1 } := by
  intro d
  refine findEndToken_at d (ch '"' :: s1) t (s2 ++ ch '"' :: rest) (by simp [d]) ?_ ht
  intro c hc
  rcases List.mem_cons.mp hc with e | e
  · rw [e]; decide
  · exact hv c e

example := C196_unknown_member_violated 0 [] (bs "x") (bs "y") (bs ",\"b\":3}") (ch ',') (by decide) (by decide +kernel)

/-- C196: without an end token the unknown member is not passed over and nothing is said about it. -/
theorem C196_unknown_member_cut_violated (d : Decoder) (h : ∀ c ∈ d.buf, ¬ EndTok c) : d.notFoundKey = d := by
  unfold Decoder.notFoundKey Decoder.findEndToken
  rw [findEnd_none d.buf h]

example : (Decoder.notFoundKey (.init (bs "12,\"b\":3}"))).decodeKey = ({ buf := bs "3}", token := ch ',', lastItem := bs "12" }, bs "b") ∧
    (Decoder.notFoundKey (.init (bs "\"x,y\",\"b\":3}"))).decodeKey.2 = bs "," := by decide +kernel

end Memar.Json
