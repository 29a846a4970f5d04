import Verif.Base

/-!
# C132: characters of compressed text (`language/string.go`)
-/

namespace Memar.Language
open Memar

/-- language/string.go:30-45 `DecodeCompressCharecter`: the four bytes and the size; `none` is the panic of an index behind the end -/
def decodeChar (s : Bytes) : Option (List Byte × Nat) :=
  s[0]?.bind fun s0 => s[1]?.bind fun s1 =>
    if s1 < 128#8 then some ([s0, 128, 128, 128], 1)
    else s[2]?.bind fun s2 =>
      if s2 < 128#8 then some ([s0, s1, 128, 128], 2)
      else s[3]?.bind fun s3 =>
        if s3 < 128#8 then some ([s0, s1, s2, 128], 3)
        else some ([s0, s1, s2, s3], 4)

/-- language/string.go:6 `Compress`: the compressed text (nil) and no error -/
def compress (_ : Bytes) : Bytes × Bool := ([], false)

/-- language/string.go:9 `UnCompress` -/
def unCompress (_ : Bytes) : Bytes × Bool := ([], false)

/-- language/string.go:13 and 17 `Validate`, `ValidateDeep`: whether there is an error -/
def validate (_ : Bytes) : Bool := false

/-- A caller's loop over a text: decode, step by the size, for at most `n` characters; stops at the end. -/
def decodeText : Nat → Bytes → Option (List (List Byte))
  | _, [] => some []
  | 0, _ => some []
  | n + 1, s => (decodeChar s).bind fun r => (decodeText n (s.drop r.2)).map (r.1 :: ·)

/-! ## Specification -/

namespace LSpec

/-- A character: a byte below 128 and up to three bytes from 128 on. -/
def IsChar (c : Bytes) : Prop := c.length ≤ 4 ∧ ∃ a r, c = a :: r ∧ a < 128#8 ∧ ∀ b ∈ r, ¬ b < 128#8

/-- The character in four bytes. -/
def padded (c : Bytes) : List Byte := c ++ List.replicate (4 - c.length) 128#8

end LSpec
open LSpec

theorem decodeChar_cons (c : Bytes) (hc : IsChar c) (b : Byte) (rest : Bytes) (hb : b < 128#8) :
    decodeChar (c ++ b :: rest) = some (padded c, c.length) := by
  obtain ⟨hl, a, r, rfl, _, hr⟩ := hc
  match r, hl, hr with
  | [], _, _ => simp [decodeChar, hb, padded, List.replicate]
  | [x], _, hr => simp [decodeChar, hb, hr x (by simp), padded, List.replicate]
  | [x, y], _, hr => simp [decodeChar, hb, hr x (by simp), hr y (by simp), padded, List.replicate]
  | [x, y, z], _, hr => simp [decodeChar, hr x (by simp), hr y (by simp), hr z (by simp), padded]
  | x :: y :: z :: t :: u, hl, _ => simp at hl

theorem decodeChar_full (c : Bytes) (hc : IsChar c) (h4 : c.length = 4) (rest : Bytes) :
    decodeChar (c ++ rest) = some (padded c, 4) := by
  obtain ⟨hl, a, r, rfl, _, hr⟩ := hc
  match r, h4, hr with
  | [x, y, z], _, hr => simp [decodeChar, hr x (by simp), hr y (by simp), hr z (by simp), padded]

theorem decodeText_flatten (cs : List Bytes) (hcs : ∀ c ∈ cs, IsChar c) : ∀ (n : Nat) (last : Bytes), IsChar last → last.length = 4 → cs.length < n →
    decodeText n (cs.flatten ++ last) = some ((cs ++ [last]).map padded) := by
  induction cs with
  | nil =>
    intro n last hl h4 hn
    obtain ⟨m, rfl⟩ : ∃ m, n = m + 1 := ⟨n - 1, by simp at hn; omega⟩
    obtain ⟨a, r, rfl⟩ : ∃ a r, last = a :: r := by obtain ⟨_, a, r, h, _⟩ := hl; exact ⟨a, r, h⟩
    have := decodeChar_full (a :: r) hl h4 []
    rw [List.append_nil] at this
    rw [List.flatten_nil, List.nil_append, decodeText, this, Option.bind_some, List.drop_eq_nil_of_le (by omega)]
    · cases m <;> simp [decodeText]
    · simp
  | cons c cs ih =>
    intro n last hl h4 hn
    obtain ⟨m, rfl⟩ : ∃ m, n = m + 1 := ⟨n - 1, by simp at hn; omega⟩
    have hc := hcs c (by simp)
    have hnext : ∃ b rest, cs.flatten ++ last = b :: rest ∧ b < 128#8 := by
      cases cs with
      | nil => obtain ⟨_, a, r, h, ha, _⟩ := hl; exact ⟨a, r, by simp [h], ha⟩
      | cons d ds =>
        obtain ⟨_, a, r, h, ha, _⟩ := hcs d (by simp)
        exact ⟨a, r ++ ds.flatten ++ last, by simp [h], ha⟩
    obtain ⟨b, rest, he, hb⟩ := hnext
    have hd := decodeChar_cons c hc b rest hb
    rw [← he] at hd
    obtain ⟨a, r, rfl⟩ : ∃ a r, c = a :: r := by obtain ⟨_, a, r, h, _⟩ := hc; exact ⟨a, r, h⟩
    rw [List.flatten_cons, List.append_assoc]
    rw [List.cons_append, decodeText]
    · rw [← List.cons_append, hd, Option.bind_some, List.drop_left, ih (fun d hdm => hcs d (by simp [hdm])) m last hl h4 (by simp at hn; omega)]
      simp
    · simp

/-- **C132**: going through a compressed text character by character gives its characters, each in four bytes and with its size, for texts of
any length whose last character is four bytes long. Missing: all other texts, for which see below. -/
theorem C132_text_partial (cs : List Bytes) (hcs : ∀ c ∈ cs, IsChar c) (last : Bytes) (hl : IsChar last) (h4 : last.length = 4) :
    decodeText (cs.length + 1) (cs.flatten ++ last) = some ((cs ++ [last]).map padded) :=
  decodeText_flatten cs hcs _ last hl h4 (by omega)

/-- **C132**: a character that is followed by another one is decoded to itself and its size.
Missing: the last character of a text, and compressing and expanding (refuted:
`C132_last_violated`, `C132_compress_violated`). -/
theorem C132_char_partial (c d rest : Bytes) (hc : IsChar c) (hd : IsChar d) : decodeChar (c ++ (d ++ rest)) = some (padded c, c.length) := by
  obtain ⟨_, a, r, rfl, ha, _⟩ := hd
  exact decodeChar_cons c hc a (r ++ rest) ha

example : IsChar [0x41, 0x80, 0x81] ∧ IsChar [0x42, 0x80, 0x80, 0xff] ∧
    decodeText 2 ([0x41, 0x80, 0x81] ++ [0x42, 0x80, 0x80, 0xff]) = some [[0x41, 0x80, 0x81, 0x80], [0x42, 0x80, 0x80, 0xff]] := by
  refine ⟨⟨by decide, 0x41, [0x80, 0x81], by decide, by decide, by decide⟩, ⟨by decide, 0x42, [0x80, 0x80, 0xff], by decide, by decide, by decide⟩, by decide⟩

/-- C132 violated: the last character of a text cannot be decoded unless it is four bytes long: for every shorter one the decoder reads behind
the end and panics. So does the empty text. -/
theorem C132_last_violated (c : Bytes) (hc : IsChar c) (h : c.length < 4) : decodeChar c = none ∧ decodeChar [] = none := by
  refine ⟨?_, rfl⟩
  obtain ⟨_, a, r, rfl, _, hr⟩ := hc
  match r, h, hr with
  | [], _, _ => simp [decodeChar]
  | [x], _, hr => simp [decodeChar, hr x (by simp)]
  | [x, y], _, hr => simp [decodeChar, hr x (by simp), hr y (by simp)]
  | x :: y :: z :: t, h, _ => simp at h; omega

/-- C132 violated: compressing a text and expanding it again loses every text that is not empty, and neither step reports an error; every
sequence of bytes counts as a valid compressed text, also one that does not start a character and one whose decoding panics. -/
theorem C132_compress_violated (s : Bytes) (h : s ≠ []) :
    unCompress (compress s).1 ≠ (s, false) ∧ (compress s).2 = false ∧ (unCompress (compress s).1).2 = false ∧
      validate s = false ∧ validate [0xff] = false ∧ decodeChar [0xff] = none := by
  refine ⟨?_, rfl, rfl, rfl, rfl, rfl⟩
  simp only [unCompress, ne_eq, Prod.mk.injEq, and_true]
  exact fun h' => h h'.symm

theorem exChar3 : IsChar [0x41, 0x80, 0x81] := ⟨by decide, 0x41, [0x80, 0x81], by decide, by decide, by decide⟩
theorem exChar4 : IsChar [0x42, 0x80, 0x80, 0xff] := ⟨by decide, 0x42, [0x80, 0x80, 0xff], by decide, by decide, by decide⟩

example := C132_text_partial [[0x41, 0x80, 0x81]] (fun c hc => by simp at hc; exact hc ▸ exChar3) [0x42, 0x80, 0x80, 0xff] exChar4 rfl
example := C132_last_violated [0x41, 0x80, 0x81] exChar3 (by decide)
example := C132_compress_violated (bs "text") (by decide)

end Memar.Language
