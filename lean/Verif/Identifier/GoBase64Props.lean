import Verif.Identifier.GoBase64

/-!
# Texts of service identifiers (C293)

Specification: a text is read without its line breaks; its characters stand for the places in the alphabet, each for six bits with the
highest first, and the identifier is made of the bytes these bits begin with, the first byte being the lowest.
-/

namespace Memar.Identifier.Go64
open Memar Memar.Binary Memar.Binary.Spec

/-- Specification: the alphabet. -/
def Spec.alphabet : Bytes := bs "ABCDEFGHIJKLMNOPQRSTUVWXYZabcdefghijklmnopqrstuvwxyz0123456789-_"

/-- Specification: a text without its line breaks. -/
def Spec.plain (s : Bytes) : Bytes := s.filter fun c => c ≠ ch '\n' && c ≠ ch '\r'

/-- Specification: the number a character stands for. -/
def Spec.place (c : Byte) : Nat := Spec.alphabet.idxOf c

/-- Specification: the lowest `w` bits of a number, the highest first. -/
def Spec.bits (w n : Nat) : List Bool := ((List.range w).map fun k => n.testBit (w - 1 - k))

/-- Specification: the bytes stand in the bits of the characters, from the first bit on. -/
def Spec.holds (p b : Bytes) : Prop :=
  b.length = 6 * p.length / 8 ∧
  b.flatMap (fun x => Spec.bits 8 x.toNat) = (p.flatMap fun c => Spec.bits 6 (Spec.place c)).take (8 * b.length)

theorem alphabet_eq : Spec.alphabet = ([65, 66, 67, 68, 69, 70, 71, 72, 73, 74, 75, 76, 77, 78, 79, 80, 81, 82, 83, 84, 85, 86, 87, 88, 89, 90, 97, 98, 99, 100, 101,
    102, 103, 104, 105, 106, 107, 108, 109, 110, 111, 112, 113, 114, 115, 116, 117, 118, 119, 120, 121, 122, 48, 49, 50, 51, 52, 53,
    54, 55, 56, 57, 45, 95] : Bytes) := by decide +kernel

theorem letters : ∀ c ∈ Spec.alphabet, sextet c = some (Spec.place c) ∧ (c ≠ ch '\n' && c ≠ ch '\r') = true := by
  simp only [Spec.place, alphabet_eq]; decide +kernel

theorem chars : ∀ d : Fin 64, charOf d.val ∈ Spec.alphabet := by
  rw [alphabet_eq]; decide +kernel

theorem sextet_some (c : Byte) (d : Nat) (h : sextet c = some d) : d < 64 ∧ c = charOf d := by
  have := c.isLt
  unfold sextet at h
  have key : ∀ e : Nat, (charOf d).toNat = e → c.toNat = e → c = charOf d := fun e h1 h2 => BitVec.eq_of_toNat_eq (h2.trans h1.symm)
  split at h
  · cases h; exact ⟨by omega, key _ rfl (by simp only [charOf]; rw [if_pos (by omega)]; simp; omega)⟩
  · split at h
    · cases h; exact ⟨by omega, key _ rfl (by simp only [charOf]; rw [if_neg (by omega), if_pos (by omega)]; simp; omega)⟩
    · split at h
      · cases h
        exact ⟨by omega, key _ rfl (by simp only [charOf]; rw [if_neg (by omega), if_neg (by omega), if_pos (by omega)]; simp)⟩
      · split at h
        · cases h; exact ⟨by omega, key 45 rfl (by omega)⟩
        · split at h
          · cases h; exact ⟨by omega, key 95 rfl (by omega)⟩
          · cases h

theorem sextet_spec (c : Byte) : sextet c = if c ∈ Spec.alphabet then some (Spec.place c) else none := by
  by_cases h : c ∈ Spec.alphabet
  · rw [if_pos h]; exact (letters c h).1
  · rw [if_neg h]
    cases e : sextet c with
    | none => rfl
    | some d =>
      obtain ⟨h1, h2⟩ := sextet_some c d e
      exact absurd (h2 ▸ chars ⟨d, h1⟩) h

theorem place_lt (c : Byte) (h : c ∈ Spec.alphabet) : Spec.place c < 64 := (sextet_some c _ (letters c h).1).1

theorem break_iff (c : Byte) : (c.toNat = 10 ∨ c.toNat = 13) ↔ ¬ (c ≠ ch '\n' && c ≠ ch '\r') = true := by
  have h1 : c = ch '\n' ↔ c.toNat = 10 := ⟨fun h => by rw [h]; rfl, fun h => BitVec.eq_of_toNat_eq h⟩
  have h2 : c = ch '\r' ↔ c.toNat = 13 := ⟨fun h => by rw [h]; rfl, fun h => BitVec.eq_of_toNat_eq h⟩
  simp only [Bool.and_eq_true, decide_eq_true_eq, ne_eq, h1, h2]; omega

theorem letter_plain (c : Byte) (h : c ∈ Spec.alphabet) : (c ≠ ch '\n' && c ≠ ch '\r') = true := (letters c h).2

theorem decode_plain (s : Bytes) : ∀ ds, decode ds s = decode ds (Spec.plain s) := by
  induction s with
  | nil => intro ds; rfl
  | cons c s ih =>
    intro ds
    by_cases hc : (c ≠ ch '\n' && c ≠ ch '\r') = true
    · have e : Spec.plain (c :: s) = c :: Spec.plain s := by simp only [Spec.plain]; rw [List.filter_cons, if_pos hc]
      rw [e]
      simp only [decode, ih]
    · have e : Spec.plain (c :: s) = Spec.plain s := by simp only [Spec.plain]; rw [List.filter_cons, if_neg hc]
      rw [e, ← ih]
      have hl : c ∉ Spec.alphabet := fun h => hc (letter_plain c h)
      simp only [decode, sextet_spec, if_neg hl, if_pos ((break_iff c).mpr hc)]

theorem bits8 (n : Nat) : Spec.bits 8 n = [n.testBit 7, n.testBit 6, n.testBit 5, n.testBit 4, n.testBit 3, n.testBit 2, n.testBit 1, n.testBit 0] := rfl
theorem bits6 (n : Nat) : Spec.bits 6 n = [n.testBit 5, n.testBit 4, n.testBit 3, n.testBit 2, n.testBit 1, n.testBit 0] := rfl

theorem group_bits (a b c d : Nat) (ha : a < 64) (hb : b < 64) (hc : c < 64) (hd : d < 64) :
    (group [a, b, c, d]).flatMap (fun x => Spec.bits 8 x.toNat) = [a, b, c, d].flatMap (Spec.bits 6) := by
  simp only [group, List.getD_cons_zero, List.getD_cons_succ, List.flatMap_cons, List.flatMap_nil, bits8, bits6, BitVec.toNat_ofNat,
    List.append_nil, List.cons_append, List.nil_append, Nat.testBit_eq_decide_div_mod_eq, Nat.reducePow, List.cons.injEq, decide_eq_decide, and_true]
  refine ⟨?_, ?_, ?_, ?_, ?_, ?_, ?_, ?_, ?_, ?_, ?_, ?_, ?_, ?_, ?_, ?_, ?_, ?_, ?_, ?_, ?_, ?_, ?_, ?_⟩ <;> omega

/-- What reading good characters gives when the values `ds` of the group are there already. -/
theorem decode_good (p : Bytes) (hp : ∀ c ∈ p, c ∈ Spec.alphabet) : ∀ ds : List Nat, ds.length ≤ 3 → (∀ d ∈ ds, d < 64) →
    ((decode ds p).2 = decide ((ds.length + p.length) % 4 ≠ 1)) ∧ (decode ds p).1.length = 6 * (ds.length + p.length) / 8 ∧
    (decode ds p).1.flatMap (fun x => Spec.bits 8 x.toNat) =
      ((ds ++ p.map Spec.place).flatMap (Spec.bits 6)).take (8 * (decode ds p).1.length) := by
  induction p with
  | nil =>
    intro ds hl hd
    match ds, hl with
    | [], _ => exact ⟨rfl, rfl, rfl⟩
    | [a], _ => simp [decode]
    | [a, b], _ =>
      have := group_bits a b 0 0 (hd a (by simp)) (hd b (by simp)) (by omega) (by omega)
      refine ⟨by simp [decode], by simp [decode, group], ?_⟩
      have h2 := congrArg (List.take 8) this
      simpa [decode, group, bits8, bits6] using h2
    | [a, b, c], _ =>
      have := group_bits a b c 0 (hd a (by simp)) (hd b (by simp)) (hd c (by simp)) (by omega)
      refine ⟨by simp [decode], by simp [decode, group], ?_⟩
      have h2 := congrArg (List.take 16) this
      simpa [decode, group, bits8, bits6] using h2
  | cons x p ih =>
    intro ds hl hd
    have hx := hp x (by simp)
    have hpx := place_lt x hx
    have ih := ih fun c hc => hp c (by simp [hc])
    simp only [decode, sextet_spec, if_pos hx]
    by_cases h3 : ds.length = 3
    · rw [if_pos h3]
      obtain ⟨i1, i2, i3⟩ := ih [] (by simp) (by simp)
      match ds, h3 with
      | [a, b, c], _ =>
        have hg := group_bits a b c (Spec.place x) (hd a (by simp)) (hd b (by simp)) (hd c (by simp)) hpx
        have gl : (group ([a, b, c] ++ [Spec.place x])).length = 3 := rfl
        refine ⟨?_, ?_, ?_⟩
        · rw [i1]
          simp only [List.length_nil, List.length_cons]
          congr 1
          simp only [eq_iff_iff]
          omega
        · simp only [List.length_append, gl, i2, List.length_nil, List.length_cons]; omega
        · rw [List.flatMap_append, i3, List.length_append, gl, show [a, b, c] ++ [Spec.place x] = [a, b, c, Spec.place x] from rfl, hg,
            show [a, b, c] ++ (x :: p).map Spec.place = [a, b, c, Spec.place x] ++ ([] ++ p.map Spec.place) from rfl,
            List.flatMap_append (xs := [a, b, c, Spec.place x]), Nat.mul_add]
          have l24 : ([a, b, c, Spec.place x].flatMap (Spec.bits 6)).length = 24 := rfl
          rw [show 8 * 3 = ([a, b, c, Spec.place x].flatMap (Spec.bits 6)).length from rfl, List.take_length_add_append]
    · rw [if_neg h3]
      obtain ⟨i1, i2, i3⟩ := ih (ds ++ [Spec.place x]) (by simp; omega) (by
        intro d h
        simp only [List.mem_append, List.mem_singleton] at h
        rcases h with h | h
        · exact hd d h
        · omega)
      refine ⟨?_, ?_, ?_⟩
      · rw [i1]; simp only [List.length_append, List.length_cons, List.length_nil]; congr 2; omega
      · rw [i2]; simp only [List.length_append, List.length_cons, List.length_nil]; congr 2; omega
      · rw [i3]; simp

/-- What reading gives when a bad character stands behind good ones. -/
theorem decode_bad (g : Bytes) (hg : ∀ c ∈ g, c ∈ Spec.alphabet) (c : Byte) (hc : c ∉ Spec.alphabet) (hb : (c ≠ ch '\n' && c ≠ ch '\r') = true)
    (r : Bytes) : ∀ ds : List Nat, ds.length ≤ 3 →
    (decode ds (g ++ c :: r)).2 = false ∧ (decode ds (g ++ c :: r)).1.length = 3 * ((ds.length + g.length) / 4) := by
  induction g with
  | nil =>
    intro ds hl
    simp only [List.nil_append, decode, sextet_spec, if_neg hc]
    rw [if_neg (fun h => ((break_iff c).mp h) hb)]
    exact ⟨rfl, by simp; omega⟩
  | cons x g ih =>
    intro ds hl
    have ih := ih fun c hc => hg c (by simp [hc])
    simp only [List.cons_append, decode, sextet_spec, if_pos (hg x (by simp))]
    by_cases h3 : ds.length = 3
    · rw [if_pos h3]
      obtain ⟨i1, i2⟩ := ih [] (by simp)
      refine ⟨i1, ?_⟩
      simp only [List.length_append, i2, List.length_nil, List.length_cons, group]; omega
    · rw [if_neg h3]
      obtain ⟨i1, i2⟩ := ih (ds ++ [Spec.place x]) (by simp; omega)
      refine ⟨i1, ?_⟩
      rw [i2]; simp only [List.length_append, List.length_nil, List.length_cons]; congr 2; omega

theorem first_bad (p : Bytes) (h : ¬ ∀ c ∈ p, c ∈ Spec.alphabet) :
    ∃ g c r, p = g ++ c :: r ∧ (∀ x ∈ g, x ∈ Spec.alphabet) ∧ c ∉ Spec.alphabet := by
  induction p with
  | nil => exact absurd (fun c hc => by cases hc) h
  | cons x p ih =>
    by_cases hx : x ∈ Spec.alphabet
    · obtain ⟨g, c, r, e, h1, h2⟩ := ih fun hp => h fun c hc => by
        rcases List.mem_cons.mp hc with rfl | hc
        · exact hx
        · exact hp c hc
      refine ⟨x :: g, c, r, by rw [e]; rfl, fun y hy => ?_, h2⟩
      rcases List.mem_cons.mp hy with rfl | hy
      · exact hx
      · exact h1 y hy
    · exact ⟨[], x, p, rfl, fun y hy => (by cases hy), hx⟩

theorem plain_mem (s : Bytes) (c : Byte) (h : c ∈ Spec.plain s) : (c ≠ ch '\n' && c ≠ ch '\r') = true := (List.mem_filter.mp h).2

/-- Specification: the text begins, line breaks aside, with twelve characters of the alphabet. -/
def Spec.tooLong (s : Bytes) : Prop := 12 ≤ (Spec.plain s).length ∧ ∀ c ∈ (Spec.plain s).take 12, c ∈ Spec.alphabet

/-- Specification: the text, line breaks aside, has only characters of the alphabet, and not one more than groups of four. -/
def Spec.good (s : Bytes) : Prop := (∀ c ∈ Spec.plain s, c ∈ Spec.alphabet) ∧ (Spec.plain s).length % 4 ≠ 1

theorem decode_cases (s : Bytes) :
    (8 < (decode [] s).1.length ↔ Spec.tooLong s) ∧ ((decode [] s).2 = true ↔ Spec.good s) ∧
    (Spec.good s → Spec.holds (Spec.plain s) (decode [] s).1) := by
  rw [decode_plain s]
  by_cases hall : ∀ c ∈ Spec.plain s, c ∈ Spec.alphabet
  · obtain ⟨h1, h2, h3⟩ := decode_good (Spec.plain s) hall [] (by simp) (by simp)
    simp only [List.length_nil, Nat.zero_add, List.nil_append] at h1 h2 h3
    refine ⟨?_, ?_, fun _ => ⟨h2, ?_⟩⟩
    · rw [h2]
      exact ⟨fun h => ⟨by omega, fun c hc => hall c (List.mem_of_mem_take hc)⟩, fun h => by have := h.1; omega⟩
    · rw [h1, decide_eq_true_eq]; exact ⟨fun h => ⟨hall, h⟩, fun h => h.2⟩
    · rw [h3, List.flatMap_map]
  · obtain ⟨g, c, r, e, hg, hc⟩ := first_bad _ hall
    have hb := plain_mem s c (by rw [e]; simp)
    obtain ⟨h1, h2⟩ := decode_bad g hg c hc hb r [] (by simp)
    rw [← e] at h1 h2
    simp only [List.length_nil, Nat.zero_add] at h2
    refine ⟨?_, ?_, fun h => absurd h.1 hall⟩
    · rw [h2]
      constructor
      · intro h
        refine ⟨by rw [e, List.length_append]; omega, fun x hx => hg x ?_⟩
        rw [e, List.take_append_of_le_length (by omega)] at hx
        exact List.mem_of_mem_take hx
      · rintro ⟨_, h⟩
        rcases Nat.lt_or_ge g.length 12 with hl | hl
        · refine absurd (h c ?_) hc
          rw [e, List.take_append, show 12 - g.length = (11 - g.length) + 1 by omega]
          simp
        · omega
    · rw [h1]; exact ⟨fun h => (by cases h), fun h => absurd h.1 hall⟩

/-- C293 violated: reading the text of an identifier panics exactly when the text begins, line breaks aside, with twelve characters of the
alphabet, whatever follows them. -/
theorem C293_panic_violated (s : Bytes) : idFromString s = none ↔ Spec.tooLong s := by
  rw [← (decode_cases s).1, idFromString, C30_id_text_any (decode []) s _ _ rfl]
  constructor
  · intro h
    split at h
    · assumption
    · split at h <;> cases h
  · intro h; rw [if_pos h]

example : Spec.tooLong (bs "AAAA\nAAAAAAAA?") ∧ ¬ Spec.tooLong (bs "AAAAAAAAAAA") := by
  unfold Spec.tooLong
  decide +kernel

/-- **C293** the part that holds: every text of at most eleven characters of the alphabet, line breaks aside, whose count is not one more than
groups of four, is read as the number whose bytes its bits spell. Missing: longer texts, see `C293_panic_violated`, other texts, see
`C293_bad_text_violated`, and that every identifier has one text only, see `C293_second_text_violated`. -/
theorem C293_read_partial (s : Bytes) (h : Spec.good s) (hl : (Spec.plain s).length ≤ 11) :
    ∃ b, Spec.holds (Spec.plain s) b ∧ idFromString s = some (BitVec.ofNat 64 (leVal b)) := by
  obtain ⟨h1, h2, h3⟩ := decode_cases s
  refine ⟨(decode [] s).1, h3 h, ?_⟩
  rw [idFromString, C30_id_text_any (decode []) s _ _ rfl, if_neg (fun hh => by have := (h1.mp hh).1; omega), if_pos (h2.mpr h)]

example : Spec.good (bs "BQ\r\nAA") ∧ (Spec.plain (bs "BQ\r\nAA")).length ≤ 11 ∧ idFromString (bs "BQ\r\nAA") = some 5#64 := by
  unfold Spec.good
  decide +kernel

/-- C293 violated: every other text is read as the identifier 0, and no error is reported. -/
theorem C293_bad_text_violated (s : Bytes) (h : ¬ Spec.good s) (hl : ¬ Spec.tooLong s) : idFromString s = some 0#64 := by
  obtain ⟨h1, h2, _⟩ := decode_cases s
  rw [idFromString, C30_id_text_any (decode []) s _ _ rfl, if_neg (fun hh => hl (h1.mp hh)), if_neg (fun hh => h (h2.mp hh))]

example : ¬ Spec.good (bs "AQAA?") ∧ ¬ Spec.tooLong (bs "AQAA?") ∧ ¬ Spec.good (bs "AQAAB") := by
  unfold Spec.good Spec.tooLong
  decide +kernel

theorem sextet_charOf (d : Nat) (h : d < 64) : sextet (charOf d) = some d := by
  have : ∀ d : Fin 64, sextet (charOf d.val) = some d.val := by decide +kernel
  exact this ⟨d, h⟩

theorem decode_charOf (ds : List Nat) (d : Nat) (h : d < 64) (cs : Bytes) :
    decode ds (charOf d :: cs) =
      if ds.length = 3 then (group (ds ++ [d]) ++ (decode [] cs).1, (decode [] cs).2) else decode (ds ++ [d]) cs := by
  simp only [decode, sextet_charOf d h]

theorem decode_encode : ∀ b : Bytes, decode [] (encode b) = (b, true)
  | [] => rfl
  | [a] => by
    have := a.isLt
    rw [encode, decode_charOf _ _ (by omega), if_neg (by simp), decode_charOf _ _ (by omega), if_neg (by simp)]
    simp only [decode, List.nil_append, List.cons_append, List.length_cons, List.length_nil, group, List.getD_cons_zero, List.getD_cons_succ,
      List.getD_nil, List.take_succ_cons, List.take_zero, Prod.mk.injEq, List.cons.injEq, and_true]
    apply BitVec.eq_of_toNat_eq
    simp only [BitVec.toNat_ofNat]; omega
  | [a, b] => by
    have := a.isLt
    have := b.isLt
    rw [encode, decode_charOf _ _ (by omega), if_neg (by simp), decode_charOf _ _ (by omega), if_neg (by simp),
      decode_charOf _ _ (by omega), if_neg (by simp)]
    simp only [decode, List.nil_append, List.cons_append, List.length_cons, List.length_nil, group, List.getD_cons_zero, List.getD_cons_succ,
      List.getD_nil, List.take_succ_cons, List.take_zero, Prod.mk.injEq, List.cons.injEq, and_true]
    constructor <;> apply BitVec.eq_of_toNat_eq <;> simp only [BitVec.toNat_ofNat] <;> omega
  | a :: b :: c :: r => by
    have := a.isLt
    have := b.isLt
    have := c.isLt
    rw [encode]
    simp only [List.cons_append, List.nil_append]
    rw [decode_charOf _ _ (by omega), if_neg (by simp), decode_charOf _ _ (by omega), if_neg (by simp),
      decode_charOf _ _ (by omega), if_neg (by simp), decode_charOf _ _ (by omega), if_pos (by simp), decode_encode r]
    simp only [List.nil_append, List.cons_append, group, List.getD_cons_zero, List.getD_cons_succ, Prod.mk.injEq, List.cons.injEq, and_true]
    refine ⟨?_, ?_, ?_⟩ <;> apply BitVec.eq_of_toNat_eq <;> simp only [BitVec.toNat_ofNat] <;> omega

/-- **C293** the part that holds: the text of an identifier is read back as the identifier. Missing: other texts, see `C293_bad_text_violated`. -/
theorem C293_round_trip_partial (id : Bytes) (h : id.length = 32) :
    ∃ t n, idAsString id = some t ∧ U32B.id id = some n ∧ idFromString t = some n := by
  have := C30_id_text encode (decode []) decode_encode id h
  simp only [U32B.idAsString, sliceTo, if_pos (show 8 ≤ id.length by omega), Option.map_some, Option.bind_some] at this
  have hn : ∃ n, U32B.id id = some n := by
    rw [U32B.id, sliceFrom, if_pos (Nat.zero_le _), Option.bind_some, List.drop_zero, C01_le64_load, if_pos (by omega)]
    exact ⟨_, rfl⟩
  obtain ⟨n, hn⟩ := hn
  exact ⟨_, n, by rw [idAsString, U32B.idAsString, sliceTo, if_pos (show 8 ≤ id.length by omega), Option.map_some], hn, this.trans hn⟩

example : idAsString (List.replicate 8 251#8 ++ List.replicate 24 0#8) = some (bs "-_v7-_v7-_s") ∧
    idFromString (bs "-_v7-_v7-_s") = some 18157383382357244923#64 := by decide +kernel

/-- C293 violated: the text of an identifier is not the only one: for every identifier there are three other texts of eleven characters of the
alphabet that are read as the same identifier. -/
theorem C293_second_text_violated (id : Bytes) (h : id.length = 32) :
    ∃ t, idAsString id = some t ∧ ∃ p, p.length = 10 ∧ (∀ c ∈ p, c ∈ Spec.alphabet) ∧ ∃ k, k < 16 ∧ t = p ++ [charOf (4 * k)] ∧
      ∀ j, j < 4 → idFromString (p ++ [charOf (4 * k + j)]) = idFromString t := by
  match id, h with
  | a0 :: a1 :: a2 :: a3 :: a4 :: a5 :: a6 :: a7 :: r, _ =>
    have := a0.isLt
    have := a1.isLt
    have := a2.isLt
    have := a3.isLt
    have := a4.isLt
    have := a5.isLt
    have := a6.isLt
    have := a7.isLt
    let p := encode [a0, a1, a2, a3, a4, a5] ++ [charOf (a6.toNat / 4), charOf (a6.toNat % 4 * 16 + a7.toNat / 16)]
    have hk : a7.toNat % 16 * 4 = 4 * (a7.toNat % 16) := by omega
    have ht : idAsString (a0 :: a1 :: a2 :: a3 :: a4 :: a5 :: a6 :: a7 :: r) = some (p ++ [charOf (4 * (a7.toNat % 16))]) := by
      simp only [idAsString, U32B.idAsString, sliceTo, List.length_cons, if_pos (show 8 ≤ r.length + 1 + 1 + 1 + 1 + 1 + 1 + 1 + 1 by omega),
        Option.map_some, List.take_succ_cons, List.take_zero, encode, p, hk, List.cons_append, List.nil_append]
    refine ⟨_, ht, p, rfl, ?_, a7.toNat % 16, by omega, rfl, fun j hj => ?_⟩
    · intro c hc
      simp only [p, encode, List.cons_append, List.nil_append, List.mem_cons, List.not_mem_nil, or_false] at hc
      rcases hc with rfl | rfl | rfl | rfl | rfl | rfl | rfl | rfl | rfl | rfl <;> exact chars ⟨_, by omega⟩
    · have hd : ∀ j, j < 4 → decode [] (p ++ [charOf (4 * (a7.toNat % 16) + j)]) = ([a0, a1, a2, a3, a4, a5, a6, a7], true) := by
        intro j hj
        have e : p ++ [charOf (4 * (a7.toNat % 16) + j)] =
            charOf (a0.toNat / 4) :: charOf (a0.toNat % 4 * 16 + a1.toNat / 16) :: charOf (a1.toNat % 16 * 4 + a2.toNat / 64) ::
            charOf (a2.toNat % 64) :: charOf (a3.toNat / 4) :: charOf (a3.toNat % 4 * 16 + a4.toNat / 16) ::
            charOf (a4.toNat % 16 * 4 + a5.toNat / 64) :: charOf (a5.toNat % 64) :: charOf (a6.toNat / 4) ::
            charOf (a6.toNat % 4 * 16 + a7.toNat / 16) :: charOf (4 * (a7.toNat % 16) + j) :: [] := rfl
        rw [e, decode_charOf _ _ (by omega), if_neg (by simp), decode_charOf _ _ (by omega), if_neg (by simp),
          decode_charOf _ _ (by omega), if_neg (by simp), decode_charOf _ _ (by omega), if_pos (by simp),
          decode_charOf _ _ (by omega), if_neg (by simp), decode_charOf _ _ (by omega), if_neg (by simp),
          decode_charOf _ _ (by omega), if_neg (by simp), decode_charOf _ _ (by omega), if_pos (by simp),
          decode_charOf _ _ (by omega), if_neg (by simp), decode_charOf _ _ (by omega), if_neg (by simp),
          decode_charOf _ _ (by omega), if_neg (by simp)]
        simp only [decode, List.nil_append, List.cons_append, List.length_cons, List.length_nil, group, List.getD_cons_zero, List.getD_cons_succ,
          List.getD_nil, List.take_succ_cons, List.take_zero, Prod.mk.injEq, List.cons.injEq, and_true]
        refine ⟨?_, ?_, ?_, ?_, ?_, ?_, ?_, ?_⟩ <;> apply BitVec.eq_of_toNat_eq <;> simp only [BitVec.toNat_ofNat] <;> omega
      have h0 := hd 0 (by omega)
      rw [Nat.add_zero] at h0
      rw [idFromString, idFromString, U32B.idFromString, U32B.idFromString, hd j hj, h0]

example : idFromString (bs "BQAAAAAAAAA") = some 5#64 ∧ idFromString (bs "BQAAAAAAAAD") = some 5#64 := by decide +kernel

end Memar.Identifier.Go64
