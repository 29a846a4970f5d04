import Verif.Json.GoBase64
import Verif.Json.StreamProps

/-!
# Base64 texts in JSON (C295)

Specification: a text is read without its line breaks; its characters stand for the places in the alphabet, each for six bits with the highest
first, and the value is made of the whole bytes these bits begin with.
-/

namespace Memar.Json.Std64
open Memar Memar.Json Memar.Identifier

/-- Specification: the alphabet (RFC 4648, section 4). -/
def Spec.alphabet : Bytes := bs "ABCDEFGHIJKLMNOPQRSTUVWXYZabcdefghijklmnopqrstuvwxyz0123456789+/"

/-- Specification: a text without its line breaks. -/
def Spec.plain (s : Bytes) : Bytes := s.filter fun c => c ≠ ch '\n' && c ≠ ch '\r'

/-- Specification: the lowest `w` bits of a number, the highest first. -/
def Spec.bits (w n : Nat) : List Bool := ((List.range w).map fun k => n.testBit (w - 1 - k))

/-- Specification: only characters of the alphabet, and not one more than groups of four. -/
def Spec.good (p : Bytes) : Prop := (∀ c ∈ p, c ∈ Spec.alphabet) ∧ p.length % 4 ≠ 1

/-- Specification: the bytes stand in the bits of the characters, from the first bit on. -/
def Spec.holds (p b : Bytes) : Prop :=
  b.length = 6 * p.length / 8 ∧
  b.flatMap (fun x => Spec.bits 8 x.toNat) = (p.flatMap fun c => Spec.bits 6 (Spec.alphabet.idxOf c)).take (8 * b.length)

theorem alphabet_eq : Spec.alphabet = ([65, 66, 67, 68, 69, 70, 71, 72, 73, 74, 75, 76, 77, 78, 79, 80, 81, 82, 83, 84, 85, 86, 87, 88, 89, 90, 97, 98, 99, 100, 101,
    102, 103, 104, 105, 106, 107, 108, 109, 110, 111, 112, 113, 114, 115, 116, 117, 118, 119, 120, 121, 122, 48, 49, 50, 51, 52, 53,
    54, 55, 56, 57, 43, 47] : Bytes) := by decide +kernel

theorem letters : ∀ c ∈ Spec.alphabet, toUrl c ∈ Go64.Spec.alphabet ∧ Spec.alphabet.idxOf c = Go64.Spec.place (toUrl c) := by
  simp only [Go64.Spec.place, Go64.alphabet_eq, alphabet_eq]; decide +kernel

theorem back : ∀ c ∈ Go64.Spec.alphabet, toStd c ∈ Spec.alphabet ∧ toUrl (toStd c) = c := by
  simp only [Go64.alphabet_eq, alphabet_eq]; decide +kernel

theorem toStd_toUrl (c : Byte) (h : toUrl c ≠ 0#8) : toStd (toUrl c) = c := by
  unfold toUrl at h ⊢
  by_cases h1 : c = ch '+'
  · rw [if_pos h1, h1]; rfl
  · rw [if_neg h1] at h ⊢
    by_cases h2 : c = ch '/'
    · rw [if_pos h2, h2]; rfl
    · rw [if_neg h2] at h ⊢
      by_cases h3 : c = ch '-' ∨ c = ch '_'
      · rw [if_pos h3] at h; exact absurd rfl h
      · rw [if_neg h3]
        unfold toStd
        rw [if_neg (fun e => h3 (Or.inl e)), if_neg (fun e => h3 (Or.inr e))]

theorem letter_iff (c : Byte) : c ∈ Spec.alphabet ↔ toUrl c ∈ Go64.Spec.alphabet := by
  refine ⟨fun h => (letters c h).1, fun h => ?_⟩
  have h0 : toUrl c ≠ 0#8 := by
    intro e
    rw [e, Go64.alphabet_eq] at h
    exact absurd h (by decide)
  have := (back _ h).1
  rwa [toStd_toUrl c h0] at this

theorem break_iff (c : Byte) : (toUrl c ≠ ch '\n' && toUrl c ≠ ch '\r') = (c ≠ ch '\n' && c ≠ ch '\r') := by
  unfold toUrl
  by_cases h1 : c = ch '+'
  · rw [if_pos h1, h1]; decide
  · rw [if_neg h1]
    by_cases h2 : c = ch '/'
    · rw [if_pos h2, h2]; decide
    · rw [if_neg h2]
      by_cases h3 : c = ch '-' ∨ c = ch '_'
      · rw [if_pos h3]
        rcases h3 with rfl | rfl <;> decide
      · rw [if_neg h3]

theorem plain_map (s : Bytes) : Go64.Spec.plain (s.map toUrl) = (Spec.plain s).map toUrl := by
  unfold Go64.Spec.plain Spec.plain
  rw [List.filter_map]
  congr 1
  apply List.filter_congr
  intro c _
  exact break_iff c

theorem good_iff (s : Bytes) : Spec.good (Spec.plain s) ↔ Go64.Spec.good (s.map toUrl) := by
  unfold Spec.good Go64.Spec.good
  rw [plain_map, List.length_map]
  simp only [List.mem_map, forall_exists_index, and_imp, forall_apply_eq_imp_iff₂, letter_iff]

theorem holds_iff (p b : Bytes) (h : ∀ c ∈ p, c ∈ Spec.alphabet) : Spec.holds p b ↔ Go64.Spec.holds (p.map toUrl) b := by
  unfold Spec.holds Go64.Spec.holds
  rw [List.length_map, List.flatMap_map]
  have : (p.flatMap fun c => Spec.bits 6 (Spec.alphabet.idxOf c)) = p.flatMap fun c => Go64.Spec.bits 6 (Go64.Spec.place (toUrl c)) := by
    rw [List.flatMap_def, List.flatMap_def]
    congr 1
    apply List.map_congr_left
    intro c hc
    rw [(letters c (h c hc)).2]; rfl
  rw [this]
  rfl

theorem bits8_inj (x y : Byte) (h : Spec.bits 8 x.toNat = Spec.bits 8 y.toNat) : x = y := by
  apply BitVec.eq_of_getLsbD_eq
  intro i hi
  have hx : ∀ z : Byte, z.getLsbD i = z.toNat.testBit i := fun z => rfl
  rw [hx, hx]
  have := congrArg (fun l => l[7 - i]?) h
  simp only [Spec.bits, List.getElem?_map, List.getElem?_range (show 7 - i < 8 by omega), Option.map_some, Option.some.injEq] at this
  rw [show 8 - 1 - (7 - i) = i by omega] at this
  exact this

theorem bytes_inj : ∀ a b : Bytes, a.length = b.length →
    a.flatMap (fun x => Spec.bits 8 x.toNat) = b.flatMap (fun x => Spec.bits 8 x.toNat) → a = b
  | [], [], _, _ => rfl
  | x :: a, y :: b, hl, h => by
    simp only [List.flatMap_cons] at h
    have hh := List.append_inj h (by simp [Spec.bits])
    rw [bits8_inj x y hh.1, bytes_inj a b (by simpa using hl) hh.2]

theorem holds_unique (p a b : Bytes) (ha : Spec.holds p a) (hb : Spec.holds p b) : a = b := by
  have hl : a.length = b.length := by rw [ha.1, hb.1]
  exact bytes_inj a b hl (by rw [ha.2, hb.2, hl])

theorem decode_spec (s : Bytes) :
    ((decode s).2 = true ↔ Spec.good (Spec.plain s)) ∧ (Spec.good (Spec.plain s) → Spec.holds (Spec.plain s) (decode s).1) := by
  obtain ⟨_, h2, h3⟩ := Go64.decode_cases (s.map toUrl)
  refine ⟨h2.trans (good_iff s).symm, fun h => ?_⟩
  have := h3 ((good_iff s).mp h)
  rw [plain_map] at this
  exact (holds_iff _ _ h.1).mpr this

theorem decodeGood_iff (s b : Bytes) : decodeGood s = some b ↔ Spec.good (Spec.plain s) ∧ Spec.holds (Spec.plain s) b := by
  obtain ⟨h1, h2⟩ := decode_spec s
  unfold decodeGood
  constructor
  · intro h
    split at h
    · rename_i hg; cases h; exact ⟨h1.mp hg, h2 (h1.mp hg)⟩
    · cases h
  · rintro ⟨hg, hb⟩
    rw [if_pos (h1.mpr hg), holds_unique _ _ _ (h2 hg) hb]

/-- **C295** the part that holds: between the quotes, a text of the alphabet that is not one character longer than groups of four is read, line
breaks aside, as the bytes its bits spell, and any other text is refused. Missing: that line breaks are refused and every value has one text only,
see `C295_line_break_violated` and `C295_second_text_violated`, and that items of a list are read independently, see `C295_leak_violated`. -/
theorem C295_read_partial (tok : Byte) (last pre s rest : Bytes) (hpre : ch '"' ∉ pre) (hs : ch '"' ∉ s) :
    let r := (Decoder.decodeBase64 decodeGood { buf := pre ++ ch '"' :: (s ++ ch '"' :: rest), token := tok, lastItem := last }).2
    (∀ b, r = .ok b ↔ Spec.good (Spec.plain s) ∧ Spec.holds (Spec.plain s) b) ∧
    (∀ e, r = .error e ↔ e = .sliceCorrupted ∧ ¬ Spec.good (Spec.plain s)) := by
  have key : (Decoder.decodeBase64 decodeGood { buf := pre ++ ch '"' :: (s ++ ch '"' :: rest), token := tok, lastItem := last }).2 =
      match decodeGood s with | none => .error .sliceCorrupted | some b => .ok b := by
    unfold Decoder.decodeBase64
    rw [trimToString_at tok last pre _ hpre]
    simp only [indexByte_append s _ _ hs, take_quote]
    cases decodeGood s <;> rfl
  simp only [key]
  constructor
  · intro b
    rw [← decodeGood_iff]
    cases decodeGood s <;> simp
  · intro e
    have hg : decodeGood s = none ↔ ¬ Spec.good (Spec.plain s) := by
      unfold decodeGood
      rw [← (decode_spec s).1]
      split <;> simp_all
    rw [← hg]
    cases decodeGood s <;> simp [eq_comm]

example : Spec.good (Spec.plain (bs "+/v7")) ∧ (decodeGood (bs "+/v7")) = some [251, 251, 251] ∧ ¬ Spec.good (Spec.plain (bs "-_v7")) := by
  unfold Spec.good
  decide +kernel

theorem encode_url (b : Bytes) : ∀ c ∈ Go64.encode b, c ∈ Go64.Spec.alphabet := by
  match b with
  | [] => intro c hc; cases hc
  | [a] =>
    have := a.isLt
    intro c hc
    simp only [Go64.encode, List.mem_cons, List.not_mem_nil, or_false] at hc
    rcases hc with rfl | rfl <;> exact Go64.chars ⟨_, by omega⟩
  | [a, b] =>
    have := a.isLt
    have := b.isLt
    intro c hc
    simp only [Go64.encode, List.mem_cons, List.not_mem_nil, or_false] at hc
    rcases hc with rfl | rfl | rfl <;> exact Go64.chars ⟨_, by omega⟩
  | x :: y :: z :: r =>
    have := x.isLt
    have := y.isLt
    have := z.isLt
    intro c hc
    rw [Go64.encode] at hc
    rcases List.mem_append.mp hc with hc | hc
    · simp only [List.mem_cons, List.not_mem_nil, or_false] at hc
      rcases hc with rfl | rfl | rfl | rfl <;> exact Go64.chars ⟨_, by omega⟩
    · exact encode_url r c hc

theorem encode_length : ∀ b : Bytes, (Go64.encode b).length = (8 * b.length + 5) / 6
  | [] => rfl
  | [a] => by simp [Go64.encode]
  | [a, b] => by simp [Go64.encode]
  | x :: y :: z :: r => by
    rw [Go64.encode, List.length_append, encode_length r]
    simp only [List.length_cons, List.length_nil]; omega

theorem map_back (l : Bytes) (h : ∀ c ∈ l, c ∈ Go64.Spec.alphabet) : (l.map toStd).map toUrl = l := by
  induction l with
  | nil => rfl
  | cons c l ih =>
    simp only [List.map_cons, (back c (h c (by simp))).2]
    rw [ih fun x hx => h x (by simp [hx])]

theorem decode_encode (b : Bytes) : decode (encode b) = (b, true) := by
  rw [decode, encode, map_back _ (encode_url b), Go64.decode_encode]

theorem encode_letters (b : Bytes) : ∀ c ∈ encode b, c ∈ Spec.alphabet := by
  intro c hc
  obtain ⟨x, hx, rfl⟩ := List.mem_map.mp hc
  exact (back x (encode_url b x hx)).1

theorem letter_tokens : ∀ c ∈ Spec.alphabet, ¬ EndTok c ∧ c ≠ ch '"' := by
  rw [alphabet_eq]; decide +kernel

/-- The encoding of the standard library has the properties that the theorems about base64 in JSON ask for (`C47_base64`, `C47_list32` and
others), so they hold of it. -/
theorem std64_codec : Base64Codec encode decodeGood where
  inv s := by rw [decodeGood, decode_encode]; rfl
  noEnd s c hc := letter_tokens c (encode_letters s c hc)
  quote s h := by
    rw [decodeGood, if_neg]
    rw [(decode_spec s).1]
    intro hg
    exact (letter_tokens _ (hg.1 (ch '"') (List.mem_filter.mpr ⟨h, by decide⟩))).2 rfl
  len32 s h := by rw [encode, List.length_map, encode_length, h]

/-- C295 violated: a line break anywhere in the text, which JSON does not allow in a string, changes nothing: both decoders read the same
value or report the same error, and so a value has any number of texts. -/
theorem C295_line_break_violated (tok : Byte) (last pre a c rest : Bytes) (hpre : ch '"' ∉ pre) (ha : ch '"' ∉ a) (hc : ch '"' ∉ c) :
    let d := fun s : Bytes => ({ buf := pre ++ ch '"' :: (s ++ ch '"' :: rest), token := tok, lastItem := last } : Decoder)
    (Decoder.decodeBase64 decodeGood (d (a ++ ch '\n' :: c))).2 = (Decoder.decodeBase64 decodeGood (d (a ++ c))).2 ∧
    (Decoder.decodeBase64 decodeGood (d (a ++ ch '\r' :: c))).2 = (Decoder.decodeBase64 decodeGood (d (a ++ c))).2 := by
  intro d
  have hp : ∀ x : Byte, (x = ch '\n' ∨ x = ch '\r') → Spec.plain (a ++ x :: c) = Spec.plain (a ++ c) := by
    intro x hx
    unfold Spec.plain
    rw [List.filter_append, List.filter_append, List.filter_cons, if_neg]
    rcases hx with rfl | rfl <;> decide
  have hs : ch '"' ∉ a ++ c := fun h => (List.mem_append.mp h).elim ha hc
  have key : ∀ x : Byte, (x = ch '\n' ∨ x = ch '\r') →
      (Decoder.decodeBase64 decodeGood (d (a ++ x :: c))).2 = (Decoder.decodeBase64 decodeGood (d (a ++ c))).2 := by
    intro x hx
    have hsx : ch '"' ∉ a ++ x :: c := by
      intro h
      rcases List.mem_append.mp h with h | h
      · exact ha h
      · rcases List.mem_cons.mp h with h | h
        · rcases hx with rfl | rfl <;> exact absurd h (by decide)
        · exact hc h
    obtain ⟨h1, h2⟩ := C295_read_partial tok last pre (a ++ x :: c) rest hpre hsx
    obtain ⟨h3, h4⟩ := C295_read_partial tok last pre (a ++ c) rest hpre hs
    rw [hp x hx] at h1 h2
    cases hr : (Decoder.decodeBase64 decodeGood (d (a ++ c))).2 with
    | ok b => exact (h1 b).mpr ((h3 b).mp hr)
    | error e => exact (h2 e).mpr ((h4 e).mp hr)
  exact ⟨key _ (Or.inl rfl), key _ (Or.inr rfl)⟩

example : (Decoder.decodeBase64 decodeGood (.init (bs "\"AQ\nID\"}"))).2 = .ok [1, 2, 3] := by decide +kernel

theorem decode_prefix : ∀ (b u : Bytes), b.length % 3 = 0 →
    Go64.decode [] (Go64.encode b ++ u) = (b ++ (Go64.decode [] u).1, (Go64.decode [] u).2)
  | [], u, _ => rfl
  | [a], u, h => by simp at h
  | [a, b], u, h => by simp at h
  | a :: b :: c :: r, u, h => by
    have := a.isLt
    have := b.isLt
    have := c.isLt
    rw [Go64.encode]
    simp only [List.cons_append, List.nil_append]
    rw [Go64.decode_charOf _ _ (by omega), if_neg (by simp), Go64.decode_charOf _ _ (by omega), if_neg (by simp),
      Go64.decode_charOf _ _ (by omega), if_neg (by simp), Go64.decode_charOf _ _ (by omega), if_pos (by simp),
      decode_prefix r u (by simp only [List.length_cons] at h; omega)]
    simp only [List.nil_append, List.cons_append, Go64.group, List.getD_cons_zero, List.getD_cons_succ, Prod.mk.injEq, List.cons.injEq, and_true]
    refine ⟨?_, ?_, ?_⟩ <;> apply BitVec.eq_of_toNat_eq <;> simp only [BitVec.toNat_ofNat] <;> omega

theorem encode_append : ∀ (b u : Bytes), b.length % 3 = 0 → Go64.encode (b ++ u) = Go64.encode b ++ Go64.encode u
  | [], u, _ => rfl
  | [a], u, h => by simp at h
  | [a, b], u, h => by simp at h
  | a :: b :: c :: r, u, h => by
    simp only [List.cons_append, Go64.encode, List.nil_append]
    rw [encode_append r u (by simp only [List.length_cons] at h; omega)]

/-- C295 violated: the text the encoder writes is not the only one of its length: when one byte is over after groups of three there are fifteen
other texts of the alphabet that are read as the same value, when two are over there are three. -/
theorem C295_second_text_violated (b : Bytes) (h : b.length % 3 ≠ 0) :
    ∃ p m k, (m = 16 ∨ m = 4) ∧ (b.length % 3 = 1 → m = 16) ∧ encode b = p ++ [Spec.alphabet.getD (m * k) 0] ∧
      ∀ j, j < m → m * k + j < 64 ∧ decodeGood (p ++ [Spec.alphabet.getD (m * k + j) 0]) = some b := by
  have hst : ∀ d : Fin 64, Spec.alphabet.getD d.val 0 = toStd (Go64.charOf d.val) := by rw [alphabet_eq]; decide +kernel
  have hsplit : ∃ q u, b = q ++ u ∧ q.length % 3 = 0 ∧ u.length = b.length % 3 := by
    refine ⟨b.take (b.length / 3 * 3), b.drop (b.length / 3 * 3), (List.take_append_drop _ _).symm, ?_, ?_⟩
    · rw [List.length_take]; omega
    · rw [List.length_drop]; omega
  obtain ⟨q, u, rfl, hq, hu⟩ := hsplit
  have hr : u.length = 1 ∨ u.length = 2 := by omega
  have fin : ∀ (v : Bytes) (d : Nat), d < 64 → (∀ c ∈ v, c ∈ Go64.Spec.alphabet) → Go64.decode [] (v ++ [Go64.charOf d]) = (u, true) →
      decodeGood ((Go64.encode q).map toStd ++ v.map toStd ++ [Spec.alphabet.getD d 0]) = some (q ++ u) := by
    intro v d hd hv hdec
    rw [hst ⟨d, hd⟩]
    have : (Go64.encode q).map toStd ++ v.map toStd ++ [toStd (Go64.charOf d)] = (Go64.encode q ++ (v ++ [Go64.charOf d])).map toStd := by simp
    rw [this, decodeGood, decode, map_back, decode_prefix q _ hq, hdec]
    · rfl
    · intro c hc
      rcases List.mem_append.mp hc with hc | hc
      · exact encode_url q c hc
      · rcases List.mem_append.mp hc with hc | hc
        · exact hv c hc
        · rw [List.mem_singleton.mp hc]; exact Go64.chars ⟨d, hd⟩
  match u, hr with
  | [x], _ =>
    have hx := x.isLt
    refine ⟨(Go64.encode q).map toStd ++ [Go64.charOf (x.toNat / 4)].map toStd, 16, x.toNat % 4, Or.inl rfl, fun _ => rfl, ?_, fun j hj => ⟨by omega, ?_⟩⟩
    · rw [encode, encode_append q _ hq, hst ⟨16 * (x.toNat % 4), by omega⟩]
      simp [Go64.encode, Nat.mul_comm]
    · refine fin _ _ (by omega) ?_ ?_
      · intro c hc; rw [List.mem_singleton.mp hc]; exact Go64.chars ⟨_, by omega⟩
      · rw [List.singleton_append, Go64.decode_charOf _ _ (by omega), if_neg (by simp), Go64.decode_charOf _ _ (by omega), if_neg (by simp)]
        simp only [Go64.decode, List.nil_append, List.cons_append, List.length_cons, List.length_nil, Go64.group, List.getD_cons_zero,
          List.getD_cons_succ, List.getD_nil, List.take_succ_cons, List.take_zero, Prod.mk.injEq, List.cons.injEq, and_true]
        apply BitVec.eq_of_toNat_eq
        simp only [BitVec.toNat_ofNat]; omega
  | [x, y], _ =>
    have hx := x.isLt
    have hy := y.isLt
    refine ⟨(Go64.encode q).map toStd ++ [Go64.charOf (x.toNat / 4), Go64.charOf (x.toNat % 4 * 16 + y.toNat / 16)].map toStd, 4, y.toNat % 16,
      Or.inr rfl, fun hh => (by rw [hh] at hu; simp at hu), ?_, fun j hj => ⟨by omega, ?_⟩⟩
    · rw [encode, encode_append q _ hq, hst ⟨4 * (y.toNat % 16), by omega⟩]
      simp [Go64.encode, Nat.mul_comm]
    · refine fin _ _ (by omega) ?_ ?_
      · intro c hc
        simp only [List.mem_cons, List.not_mem_nil, or_false] at hc
        rcases hc with rfl | rfl <;> exact Go64.chars ⟨_, by omega⟩
      · simp only [List.cons_append, List.nil_append]
        rw [Go64.decode_charOf _ _ (by omega), if_neg (by simp), Go64.decode_charOf _ _ (by omega), if_neg (by simp),
          Go64.decode_charOf _ _ (by omega), if_neg (by simp)]
        simp only [Go64.decode, List.nil_append, List.cons_append, List.length_cons, List.length_nil, Go64.group, List.getD_cons_zero,
          List.getD_cons_succ, List.getD_nil, List.take_succ_cons, List.take_zero, Prod.mk.injEq, List.cons.injEq, and_true]
        constructor <;> apply BitVec.eq_of_toNat_eq <;> simp only [BitVec.toNat_ofNat] <;> omega

example : encode [5] = bs "BQ" ∧ decodeGood (bs "BQ") = some [5] ∧ decodeGood (bs "Bf") = some [5] := by decide +kernel

theorem into32_run (over : Bytes → Nat → Nat) :
    ∀ (r : List Bytes) (a : Bytes) (n : Nat) (acc : List Bytes) (tok : Byte) (last pre rest array : Bytes),
      (∀ x ∈ a :: r, x.length = 32) → tok ≠ ch ']' → ch '"' ∉ pre → r.length + 2 ≤ n → array.length = 32 →
      ∃ l, into32Loop decode over n { buf := pre ++ (quotedList encode (a :: r) ++ ch ']' :: rest), token := tok, lastItem := last } array acc =
        .done { buf := ch ']' :: rest, token := 0, lastItem := l } (.ok (acc ++ a :: r)) := by
  intro r
  induction r with
  | nil =>
    intro a n acc tok last pre rest array hl ht hpre hn har
    obtain ⟨m, rfl⟩ : ∃ m, n = m + 2 := ⟨n - 2, by simp at hn; omega⟩
    have h32 := hl a (by simp)
    have h43 := std64_codec.len32 a h32
    refine ⟨[ch '"'], ?_⟩
    rw [into32Loop, if_neg ht]
    rw [show quotedList encode [a] ++ ch ']' :: rest = ch '"' :: (encode a ++ ch '"' :: ch ']' :: rest) by simp [quotedList]]
    rw [trimToString_at tok last pre _ hpre]
    simp only
    rw [if_neg (by simp; omega), ← h43, List.take_left' rfl, intoArray_exact decode over array _ a (decode_encode a) (by omega), List.drop_left' rfl]
    simp only
    rw [findEndToken_at _ [ch '"'] (ch ']') rest rfl (by decide) (Or.inr (Or.inl rfl)), into32Loop, if_pos rfl]
  | cons b r ih =>
    intro a n acc tok last pre rest array hl ht hpre hn har
    obtain ⟨m, rfl⟩ : ∃ m, n = m + 1 := ⟨n - 1, by simp at hn; omega⟩
    have h32 := hl a (by simp)
    have h43 := std64_codec.len32 a h32
    obtain ⟨l, hih⟩ := ih b m (acc ++ [a]) (ch ',') [ch '"'] [ch ','] rest a (fun x hx => hl x (List.mem_cons_of_mem _ hx))
      (by decide) (by decide) (by simp at hn ⊢; omega) h32
    refine ⟨l, ?_⟩
    rw [into32Loop, if_neg ht]
    rw [show quotedList encode (a :: b :: r) ++ ch ']' :: rest =
      ch '"' :: (encode a ++ ([ch '"'] ++ ch ',' :: (quotedList encode (b :: r) ++ ch ']' :: rest))) by simp [quotedList_cons]]
    rw [trimToString_at tok last pre _ hpre]
    simp only
    rw [if_neg (by simp; omega), ← h43, List.take_left' rfl, intoArray_exact decode over array _ a (decode_encode a) (by omega), List.drop_left' rfl]
    simp only
    rw [findEndToken_at _ [ch '"'] (ch ',') _ rfl (by decide) (Or.inl rfl)]
    rw [List.singleton_append] at hih
    rw [hih]
    simp

/-- **C295** the part that holds of lists: a non-empty list of values of 32 bytes that the encoder wrote is read back, all values in order,
whatever zeros the library writes behind the bytes it read. Missing: texts with line breaks, see `C295_leak_violated`. -/
theorem C295_list_partial (over : Bytes → Nat → Nat) (pre rest text : Bytes) (tok : Byte) (last : Bytes) (s : List Bytes) (hs : s ≠ [])
    (hl : ∀ x ∈ s, x.length = 32) (hpre : ch '[' ∉ pre) (htok : tok ≠ ch ']') (he : encode32 encode (encodeByte pre (ch '[')) s = some text)
    (rounds : Nat) (hr : s.length + 1 ≤ rounds) :
    ∃ l, decode32 decode over rounds { buf := text ++ ch ']' :: rest, token := tok, lastItem := last } =
      .done { buf := ch ']' :: rest, token := 0, lastItem := l } (.ok s) := by
  cases s with
  | nil => exact absurd rfl hs
  | cons a r =>
    rw [encode32_eq] at he
    cases he
    obtain ⟨l, h⟩ := into32_run over r a rounds [] tok last [] rest (List.replicate 32 0#8) hl htok (by simp) (by simp at hr ⊢; omega) (by simp)
    refine ⟨l, ?_⟩
    unfold decode32
    rw [show encodeByte pre (ch '[') ++ quotedList encode (a :: r) ++ ch ']' :: rest =
      pre ++ ch '[' :: (quotedList encode (a :: r) ++ ch ']' :: rest) by simp [encodeByte]]
    simp only [indexByte_append pre _ _ hpre, drop_quote]
    simpa using h

example := C295_list_partial (fun _ _ => 2) (bs "\"k\":") [] (bs "\"k\":[\"" ++ encode (List.replicate 32 7) ++ bs "\"") 0 [] [List.replicate 32 7] (by simp) (by simp)
  (by decide) (by decide) (by decide +kernel) 2 (by simp)

theorem holds_length (s : Bytes) (h : Spec.good (Spec.plain s)) : (decode s).1.length = 6 * (Spec.plain s).length / 8 := ((decode_spec s).2 h).1

/-- C295 violated: an item of a list with line breaks among its 43 characters is accepted with fewer than 32 bytes, and the others are those of
the item before it: from the second byte behind those that were read on, the two values agree. -/
theorem C295_leak_violated (over : Bytes → Nat → Nat) (hover : ∀ t n, over t n ≤ 2) (tok : Byte) (last a x rest : Bytes) (ha : a.length = 32)
    (htok : tok ≠ ch ']') (hx : x.length = 43) (hg : Spec.good (Spec.plain x)) (rounds : Nat) :
    ∃ d v, decode32 decode over (rounds + 3)
        { buf := ch '[' :: ch '"' :: (encode a ++ ch '"' :: ch ',' :: ch '"' :: (x ++ ch '"' :: ch ']' :: rest)), token := tok, lastItem := last } =
        .done d (.ok [a, v]) ∧
      ∀ i, 6 * (Spec.plain x).length / 8 + 2 ≤ i → v[i]? = a[i]? := by
  have h43 := std64_codec.len32 a ha
  have hlen := holds_length x hg
  have hpl : (Spec.plain x).length ≤ x.length := List.length_filter_le _ _
  have hle : (decode x).1.length ≤ a.length := by omega
  have hv : intoArray decode over a x = some ((decode x).1 ++ zeroFirst (over x a.length) (a.drop (decode x).1.length), true) := by
    unfold intoArray
    simp only [if_pos hle, (decode_spec x).1.mpr hg]
  refine ⟨{ buf := ch ']' :: rest, token := 0, lastItem := [ch '"'] }, (decode x).1 ++ zeroFirst (over x a.length) (a.drop (decode x).1.length), ?_, ?_⟩
  · unfold decode32
    have hi : indexByte (ch '[' :: ch '"' :: (encode a ++ ch '"' :: ch ',' :: ch '"' :: (x ++ ch '"' :: ch ']' :: rest))) (ch '[') = some 0 :=
      indexByte_append [] _ (ch '[') (by simp)
    simp only [hi, Nat.zero_add, List.drop_succ_cons, List.drop_zero]
    rw [into32Loop, if_neg htok]
    have t1 := trimToString_at tok last [] (encode a ++ ch '"' :: ch ',' :: ch '"' :: (x ++ ch '"' :: ch ']' :: rest)) (by simp)
    simp only [List.nil_append] at t1
    rw [t1]
    simp only
    rw [if_neg (by simp; omega), show List.take 43 (encode a ++ ch '"' :: ch ',' :: ch '"' :: (x ++ ch '"' :: ch ']' :: rest)) = encode a from
        List.take_left' h43, intoArray_exact decode over _ _ a (decode_encode a) (by simp [ha]),
      show List.drop 43 (encode a ++ ch '"' :: ch ',' :: ch '"' :: (x ++ ch '"' :: ch ']' :: rest)) = _ from List.drop_left' h43]
    simp only
    rw [findEndToken_at _ [ch '"'] (ch ',') _ rfl (by decide) (Or.inl rfl), into32Loop, if_neg (show ch ',' ≠ ch ']' by decide)]
    have t2 := trimToString_at (ch ',') [ch '"'] [ch ','] (x ++ ch '"' :: ch ']' :: rest) (by decide)
    rw [List.singleton_append] at t2
    rw [t2]
    simp only
    rw [if_neg (by simp; omega), show List.take 43 (x ++ ch '"' :: ch ']' :: rest) = x from List.take_left' hx, hv,
      show List.drop 43 (x ++ ch '"' :: ch ']' :: rest) = _ from List.drop_left' hx]
    simp only
    rw [findEndToken_at _ [ch '"'] (ch ']') rest rfl (by decide) (Or.inr (Or.inl rfl)), into32Loop, if_pos rfl]
    rfl
  · intro i hi
    have ho := hover x a.length
    rw [List.getElem?_append_right (by omega), zeroFirst]
    rw [List.getElem?_append_right (by rw [List.length_replicate]; omega), List.length_replicate, List.drop_drop, List.getElem?_drop]
    rcases Nat.lt_or_ge i 32 with h32 | h32
    · congr 1
      rw [List.length_drop]; omega
    · rw [List.getElem?_eq_none (by rw [List.length_drop]; omega), List.getElem?_eq_none (by omega)]

/-- Forty-three line breaks are such an item: it is read as the item before it, from its third byte on. -/
example : Spec.good (Spec.plain (List.replicate 43 (ch '\n'))) ∧ Spec.plain (List.replicate 43 (ch '\n')) = [] := by
  unfold Spec.good
  decide +kernel

end Memar.Json.Std64
