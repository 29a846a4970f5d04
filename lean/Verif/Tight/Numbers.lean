import Verif.Binary.Props
import Verif.Math.Props
import Verif.Uri.EscapeProps
import Verif.Json.Props2

/-!
# Byte order of every width, texts of 64-bit numbers, products that overflow, lengths of decoded texts, short lists of hashes
-/

namespace Memar.Binary
open Memar Spec

theorem pal_load {n : Nat} (b : Bytes) (h : n ≤ b.length) :
    leVal (b.take n) = beVal (b.take n) ↔ (b.take n).reverse = b.take n := by
  have hl : (b.take n).length = n := by simp; omega
  have e1 := beDigits_beVal (b.take n)
  have e2 := leDigits_leVal (b.take n)
  rw [hl] at e1 e2
  rw [beDigits_eq_rev] at e2
  constructor
  · intro e
    rw [e, e1] at e2
    exact e2
  · intro e
    have e3 : beDigits n (leVal (b.take n)) = (b.take n).reverse := by
      rw [← List.reverse_reverse (beDigits n _), e2]
    have : beDigits n (leVal (b.take n)) = beDigits n (beVal (b.take n)) := by rw [e3, e, e1]
    have k := congrArg beVal this
    have l1 := leVal_lt (b.take n)
    have l2 : beVal (b.take n) < 256 ^ n := by
      have := leVal_lt (b.take n).reverse
      simpa [beVal, hl] using this
    rw [hl] at l1
    rw [beVal_beDigits, beVal_beDigits, Nat.mod_eq_of_lt l1, Nat.mod_eq_of_lt l2] at k
    exact k

/-- **C02** violated at every width: on a buffer that is long enough the two builds write the same bytes exactly for the values whose bytes read the same from
both ends, and read the same value exactly from bytes that do. -/
theorem C02_portable_widths_violated (b : Bytes) :
    (2 ≤ b.length →
      (∀ v : U16, BEonBE.putUint16 b v = BE.putUint16 b v ↔ (beDigits 2 v.toNat).reverse = beDigits 2 v.toNat) ∧
      (BEonBE.uint16 b = BE.uint16 b ↔ (b.take 2).reverse = b.take 2) ∧
      (∀ v : U16, LEonBE.putUint16 b v = LE.putUint16 b v ↔ (beDigits 2 v.toNat).reverse = beDigits 2 v.toNat) ∧
      (LEonBE.uint16 b = LE.uint16 b ↔ (b.take 2).reverse = b.take 2)) ∧
    (4 ≤ b.length →
      (∀ v : U32, BEonBE.putUint32 b v = BE.putUint32 b v ↔ (beDigits 4 v.toNat).reverse = beDigits 4 v.toNat) ∧
      (BEonBE.uint32 b = BE.uint32 b ↔ (b.take 4).reverse = b.take 4) ∧
      (∀ v : U32, LEonBE.putUint32 b v = LE.putUint32 b v ↔ (beDigits 4 v.toNat).reverse = beDigits 4 v.toNat) ∧
      (LEonBE.uint32 b = LE.uint32 b ↔ (b.take 4).reverse = b.take 4)) ∧
    (8 ≤ b.length →
      (∀ v : U64, BEonBE.putUint64 b v = BE.putUint64 b v ↔ (beDigits 8 v.toNat).reverse = beDigits 8 v.toNat) ∧
      (BEonBE.uint64 b = BE.uint64 b ↔ (b.take 8).reverse = b.take 8) ∧
      (∀ v : U64, LEonBE.putUint64 b v = LE.putUint64 b v ↔ (beDigits 8 v.toNat).reverse = beDigits 8 v.toNat) ∧
      (LEonBE.uint64 b = LE.uint64 b ↔ (b.take 8).reverse = b.take 8)) := by
  have st : ∀ (n v : Nat), (some (leDigits n v ++ b.drop n) = some (beDigits n v ++ b.drop n) ↔
      (beDigits n v).reverse = beDigits n v) := by
    intro n v
    rw [beDigits_eq_rev]
    simp
  have st' : ∀ (n v : Nat), (some (beDigits n v ++ b.drop n) = some (leDigits n v ++ b.drop n) ↔
      (beDigits n v).reverse = beDigits n v) := fun n v => ⟨fun h => (st n v).1 h.symm, fun h => ((st n v).2 h).symm⟩
  have ld : ∀ (n w : Nat), n ≤ b.length → 256 ^ n = 2 ^ w →
      ((some (BitVec.ofNat w (leVal (b.take n))) = some (BitVec.ofNat w (beVal (b.take n)))) ↔
        (b.take n).reverse = b.take n) := by
    intro n w hn hw
    rw [← pal_load b hn]
    have hl : (b.take n).length = n := by simp; omega
    have l1 := leVal_lt (b.take n)
    have l2 : beVal (b.take n) < 256 ^ n := by
      have := leVal_lt (b.take n).reverse
      simpa [beVal, hl] using this
    rw [hl] at l1
    rw [hw] at l1 l2
    constructor
    · intro h
      have := congrArg BitVec.toNat (Option.some.inj h)
      rwa [BitVec.toNat_ofNat, BitVec.toNat_ofNat, Nat.mod_eq_of_lt l1, Nat.mod_eq_of_lt l2] at this
    · intro h; rw [h]
  have ld' : ∀ (n w : Nat), n ≤ b.length → 256 ^ n = 2 ^ w →
      ((some (BitVec.ofNat w (beVal (b.take n))) = some (BitVec.ofNat w (leVal (b.take n)))) ↔
        (b.take n).reverse = b.take n) := fun n w h1 h2 => ⟨fun h => (ld n w h1 h2).1 h.symm, fun h => ((ld n w h1 h2).2 h).symm⟩
  obtain ⟨a1, a2, a3, a4, a5, a6⟩ := C02_be_on_be_cpu_is_le b
  obtain ⟨c1, c2, c3, c4, c5, c6⟩ := C02_le_on_be_cpu_is_be b
  refine ⟨fun h => ⟨fun v => ?_, ?_, fun v => ?_, ?_⟩, fun h => ⟨fun v => ?_, ?_, fun v => ?_, ?_⟩,
    fun h => ⟨fun v => ?_, ?_, fun v => ?_, ?_⟩⟩
  · rw [a4, C01_le16_store, C01_be16_store, if_pos h, if_pos h]; exact st 2 _
  · rw [a1, C01_le16_load, C01_be16_load, if_pos h, if_pos h]; exact ld 2 16 h rfl
  · rw [c4, C01_le16_store, C01_be16_store, if_pos h, if_pos h]; exact st' 2 _
  · rw [c1, C01_le16_load, C01_be16_load, if_pos h, if_pos h]; exact ld' 2 16 h rfl
  · rw [a5, C01_le32_store, C01_be32_store, if_pos h, if_pos h]; exact st 4 _
  · rw [a2, C01_le32_load, C01_be32_load, if_pos h, if_pos h]; exact ld 4 32 h rfl
  · rw [c5, C01_le32_store, C01_be32_store, if_pos h, if_pos h]; exact st' 4 _
  · rw [c2, C01_le32_load, C01_be32_load, if_pos h, if_pos h]; exact ld' 4 32 h rfl
  · rw [a6, C01_le64_store, C01_be64_store, if_pos h, if_pos h]; exact st 8 _
  · rw [a3, C01_le64_load, C01_be64_load, if_pos h, if_pos h]; exact ld 8 64 h rfl
  · rw [c6, C01_le64_store, C01_be64_store, if_pos h, if_pos h]; exact st' 8 _
  · rw [c3, C01_le64_load, C01_be64_load, if_pos h, if_pos h]; exact ld' 8 64 h rfl

example : BEonBE.uint16 [1, 2] = some 513 ∧ BE.uint16 [1, 2] = some 258 ∧ BEonBE.uint16 [3, 3] = BE.uint16 [3, 3] := by decide

end Memar.Binary

namespace Memar.Math
open Memar Memar.Decimal

theorem parseLoop64_append (s t : Bytes) : ∀ n : U64, parseLoop64 n (s ++ t) =
    match parseLoop64 n s with
    | .error e => .error e
    | .ok v => parseLoop64 v t := by
  induction s with
  | nil => intro n; rfl
  | cons c s ih =>
    intro n
    rw [List.cons_append, parseLoop64, parseLoop64]
    split
    · dsimp only
      split
      · rfl
      · exact ih _
    · rfl

/-- **C07**: exactly which texts the 64-bit parser takes: digit strings of at most nineteen digits, and those of twenty digits for which ten times the number of
the first nineteen, cut to 64 bits, is not below that number.
Missing: that numbers above 2^64 - 1 are refused (refuted: `C07_u64_violated`,
`C07_u64_product_violated`, `C07_u64_just_above_violated` and others). -/
theorem C07_u64_accepts_partial (u : U64) (s : Bytes) : (fromString64 u s).2 = none ↔
    s ≠ [] ∧ AllDigits s ∧ (s.length ≤ 19 ∨
      (s.length = 20 ∧ decVal (s.take 19) ≤ decVal (s.take 19) * 10 % 18446744073709551616)) := by
  by_cases hs : s = []
  · simp [fromString64, hs]
  by_cases hd : AllDigits s
  case neg =>
    constructor
    · intro h; exact absurd ((C07_u64_partial u s).2.1 h).2.1 hd
    · intro h; exact absurd h.2.1 hd
  by_cases hl : s.length ≤ 19
  · have h1 := decVal_lt s hd
    have h3 : 10 ^ s.length ≤ 10 ^ 19 := Nat.pow_le_pow_right (by omega) hl
    rw [(C07_u64_partial u s).1 ⟨hs, hd, by omega, by omega⟩]
    simp [hs, hd, hl]
  by_cases hl2 : s.length = 20
  case neg =>
    unfold fromString64
    rw [if_neg hs, if_pos (by omega)]
    simp; omega
  have hsp : s = s.take 19 ++ s.drop 19 := (List.take_append_drop 19 s).symm
  have h19 : (s.take 19).length = 19 := by simp; omega
  obtain ⟨c, hc⟩ : ∃ c, s.drop 19 = [c] := by
    have : (s.drop 19).length = 1 := by simp; omega
    match hq : s.drop 19, this with
    | [c], _ => exact ⟨c, rfl⟩
  have hd1 : AllDigits (s.take 19) := fun x hx => hd x (List.mem_of_mem_take hx)
  have hdc : IsDigit c := hd c (List.mem_of_mem_drop (by rw [hc]; simp))
  have h1 := decVal_lt _ hd1
  rw [h19] at h1
  obtain ⟨v, hv⟩ := parseLoop64_complete (s.take 19) 0 hd1 (by change decVal _ < _; omega)
  have hvn := (parseLoop64_ok _ _ _ hv).2
  change v.toNat = decVal _ % _ at hvn
  rw [Nat.mod_eq_of_lt (by omega)] at hvn
  have e : parseLoop64 0 s = if v * 10 < v then .error .outOfRange else .ok (v * 10 + (c - 48).setWidth 64) := by
    rw [hsp, hc, parseLoop64_append, hv]
    dsimp only
    rw [parseLoop64, if_pos ((isDigit_iff c).2 hdc)]
    rfl
  have hcond : v * 10 < v ↔ ¬ decVal (s.take 19) ≤ decVal (s.take 19) * 10 % 18446744073709551616 := by
    rw [BitVec.lt_def, BitVec.toNat_mul, hvn]
    change _ * 10 % 18446744073709551616 < _ ↔ _
    omega
  unfold fromString64
  rw [if_neg hs, if_neg (by omega), e]
  by_cases h : v * 10 < v
  · rw [if_pos h]
    rw [hcond] at h
    simp [h, hl]
  · rw [if_neg h]
    rw [hcond] at h
    simp [hs, hd, hl2, Classical.not_not.1 h]

example : (fromString64 0 (bs "92000000000000000000")).2 = none ∧ (fromString64 0 (bs "20000000000000000000")).2 ≠ none := by decide +kernel

/-- **C07** violated for all four numbers directly above the range: they are taken, as the numbers from zero to three. -/
theorem C07_u64_just_above_violated (u : U64) (n : Nat) (h1 : 2 ^ 64 ≤ n) (h2 : n < 2 ^ 64 + 4) :
    fromString64 u (decDigits n) = (BitVec.ofNat 64 (n - 2 ^ 64), none) := by
  have hn : n = 18446744073709551616 ∨ n = 18446744073709551617 ∨ n = 18446744073709551618 ∨ n = 18446744073709551619 := by omega
  have hlen : ∀ n, 10 ≤ n → decVal ((decDigits n).take ((decDigits n).length - 1)) = n / 10 := by
    intro n hn
    rw [decDigits_step n hn]
    simp [decVal_decDigits]
  have h20 : (decDigits n).length = 20 := by
    rcases hn with rfl | rfl | rfl | rfl <;> decide +kernel
  have hacc : (fromString64 u (decDigits n)).2 = none := by
    rw [C07_u64_accepts_partial]
    refine ⟨decDigits_ne_nil n, decDigits_allDigits n, .inr ⟨h20, ?_⟩⟩
    have := hlen n (by omega)
    rw [h20] at this
    rw [this]
    omega
  have hv := ((C07_u64_partial u _).2.1 hacc).2.2.2
  rw [decVal_decDigits] at hv
  refine Prod.ext (BitVec.eq_of_toNat_eq ?_) hacc
  rw [hv, BitVec.toNat_ofNat]
  omega

example := C07_u64_just_above_violated 5 18446744073709551618 (by decide) (by decide)

/-- **C07**: at 64 bits, a text without redundant leading zeros that is taken is printed again exactly if its number fits.
Missing: that numbers above 2^64 - 1 are refused (refuted: `C07_u64_violated`,
`C07_u64_product_violated`, `C07_u64_just_above_violated` and others). -/
theorem C07_parse_print_u64_partial (u : U64) (s : Bytes) (hc : Canonical s) (h : (fromString64 u s).2 = none) :
    toString (fromString64 u s).1 = s ↔ decVal s < 2 ^ 64 := by
  have hv := ((C07_u64_partial u s).2.1 h).2.2.2
  rw [toString, hv]
  constructor
  · intro e
    have := congrArg decVal e
    rw [decVal_decDigits] at this
    omega
  · intro hlt
    rw [Nat.mod_eq_of_lt hlt, decDigits_decVal s hc]

example := C07_parse_print_u64_partial 5 (bs "92000000000000000000") ⟨by decide +kernel, by decide +kernel, by decide +kernel⟩ (by decide +kernel)
example := C07_parse_print_u64_partial 5 (bs "4096") ⟨by decide +kernel, by decide +kernel, by decide +kernel⟩ (by decide +kernel)

/-- **C07** violated at 64 bits: whenever a number above the range is taken, the printed text is another one; four numbers are. -/
theorem C07_parse_print_u64_violated :
    (∀ (u : U64) (s : Bytes), Canonical s → (fromString64 u s).2 = none → 2 ^ 64 ≤ decVal s → toString (fromString64 u s).1 ≠ s) ∧
    (∀ u : U64, toString (fromString64 u (bs "18446744073709551616")).1 = bs "0" ∧ (fromString64 u (bs "18446744073709551616")).2 = none) := by
  refine ⟨fun u s hc h hlt e => ?_, fun u => ?_⟩
  · have := (C07_parse_print_u64_partial u s hc h).1 e
    omega
  · have := C07_u64_just_above_violated u 18446744073709551616 (by omega) (by omega)
    rw [show decDigits 18446744073709551616 = bs "18446744073709551616" by decide +kernel] at this
    rw [this]
    exact ⟨by decide +kernel, rfl⟩

/-- A per-`N` calculator that computes with the product cut to 64 bits. -/
def PerWraps {w} (f : BitVec w → U64 → U64) (N : Nat) : Prop :=
  ∀ (b : BitVec w) (num : U64), (f b num).toNat = num.toNat * b.toNat % 2 ^ 64 / N

/-- **C179** violated for every product that overflows by at least the divisor: the calculators divide the product cut to 64 bits, so the result is too small
by at least one, for every rate and number with such a product. -/
theorem C179_overflow_wraps_violated :
    (PerWraps perTen 10 ∧ PerWraps perCent 100 ∧ PerWraps perMille 1000 ∧ PerWraps perMyriad 10000 ∧
      PerWraps perCentMille 100000 ∧ PerWraps perMillion 1000000 ∧ PerWraps perBillion 1000000000) ∧
    (∀ {w} (f : BitVec w → U64 → U64) (N : Nat), PerWraps f N → 0 < N → N ≤ 2 ^ 64 → ∀ b num, 2 ^ 64 ≤ num.toNat * b.toNat →
      (f b num).toNat < num.toNat * b.toNat / N) := by
  have h8 : ∀ b : U8, (b.setWidth 64).toNat = b.toNat := fun b => by
    rw [BitVec.toNat_setWidth]; exact Nat.mod_eq_of_lt (by omega)
  have h16 : ∀ b : U16, (b.setWidth 64).toNat = b.toNat := fun b => by
    rw [BitVec.toNat_setWidth]; exact Nat.mod_eq_of_lt (by omega)
  have h32 : ∀ b : U32, (b.setWidth 64).toNat = b.toNat := fun b => by
    rw [BitVec.toNat_setWidth]; exact Nat.mod_eq_of_lt (by omega)
  have key : ∀ b num d : U64, (perCalc b num d).toNat = num.toNat * b.toNat % 2 ^ 64 / d.toNat := by
    intro b num d
    rw [perCalc, BitVec.toNat_udiv, BitVec.toNat_mul]
  refine ⟨⟨?_, ?_, ?_, ?_, ?_, ?_, ?_⟩, ?_⟩
  · intro b num; rw [perTen, key, h8]; rfl
  · intro b num; rw [perCent, key, h8]; rfl
  · intro b num; rw [perMille, key, h16]; rfl
  · intro b num; rw [perMyriad, key, h16]; rfl
  · intro b num; rw [perCentMille, key, h32]; rfl
  · intro b num; rw [perMillion, key, h32]; rfl
  · intro b num; rw [perBillion, key, h32]; rfl
  · intro w f N hf hN hN2 b num h
    rw [hf]
    have h1 : num.toNat * b.toNat % 2 ^ 64 + 2 ^ 64 ≤ num.toNat * b.toNat := by omega
    calc num.toNat * b.toNat % 2 ^ 64 / N < (num.toNat * b.toNat % 2 ^ 64 + N) / N := by
          rw [Nat.add_div_right _ hN]; omega
      _ ≤ num.toNat * b.toNat / N := Nat.div_le_div_right (by omega)

example : (2:Nat) ^ 64 ≤ (9223372036854775808 : U64).toNat * (200 : U8).toNat := by decide

end Memar.Math

namespace Memar.Uri
open Memar Spec

theorem hexVal_pct (a : Byte) (x : Nat) (h : hexVal a = some x) : a ≠ ch '%' := by
  rintro rfl
  rw [show hexVal (ch '%') = none by decide] at h
  cases h

/-- **C12**: on success the decoded text is shorter by exactly two bytes for every percent sign of the input. -/
theorem C12_length_exact (s t : Bytes) (m : Mode) (h : unescape s m = some (.ok t)) :
    s.length = t.length + 2 * pctCount s := by
  rw [(C12_unescape_exact s m).2] at h
  induction h with
  | nil => rfl
  | esc a b x y s t ha hb _ _ ih =>
    have h1 := hexVal_pct a x ha
    have h2 := hexVal_pct b y hb
    simp only [pctCount, List.count_cons, List.length_cons] at ih ⊢
    simp [h1, h2]; omega
  | plus s t _ _ ih =>
    have : (ch '+' == ch '%') = false := by decide
    simp only [pctCount, List.count_cons, List.length_cons, this] at ih ⊢
    simp; omega
  | raw c s t hc _ _ _ ih =>
    simp only [pctCount, List.count_cons, List.length_cons] at ih ⊢
    simp [hc]; omega

example : unescape (bs "a%20b%41") .path = some (.ok (bs "a bA")) ∧ pctCount (bs "a%20b%41") = 2 := by decide +kernel

end Memar.Uri

namespace Memar.Json
open Memar

/-- **C196** violated for a list of 32-byte values that is cut off: if fewer than 43 bytes follow the quote that opens the value, the decoder panics, whatever
they are; with exactly 43 bytes it decodes them. -/
theorem C196_list32_cut_off_violated (dec : Bytes → Option Bytes) (pre mid rest : Bytes) (tok : Byte) (last : Bytes)
    (hpre : ch '[' ∉ pre) (hmid : ch '"' ∉ mid) (htok : tok ≠ ch ']') (rounds : Nat) :
    (rest.length < 43 →
      Decoder.decode32 dec (rounds + 1) { buf := pre ++ ch '[' :: (mid ++ ch '"' :: rest), token := tok, lastItem := last } = .panic) ∧
    (rest.length = 43 → dec rest = none →
      Decoder.decode32 dec (rounds + 1) { buf := pre ++ ch '[' :: (mid ++ ch '"' :: rest), token := tok, lastItem := last } =
        .done { buf := rest, token := tok, lastItem := last } (.error .sliceCorrupted)) := by
  have e : Decoder.decode32 dec (rounds + 1) { buf := pre ++ ch '[' :: (mid ++ ch '"' :: rest), token := tok, lastItem := last } =
      slice32Loop dec (rounds + 1) { buf := mid ++ ch '"' :: rest, token := tok, lastItem := last } [] := by
    unfold Decoder.decode32
    simp only [indexByte_append pre _ _ hpre, drop_quote]
  rw [e, slice32Loop]
  simp only [if_neg htok, trimToString_at tok last mid rest hmid]
  refine ⟨fun h => by rw [if_pos h], fun h hd => ?_⟩
  rw [if_neg (by omega), List.take_of_length_le (by omega), hd]

example : (bs "[\"abc").length < 43 := by decide

end Memar.Json
