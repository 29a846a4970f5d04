import Verif.Base

/-!
# A specification of unpadded standard base64 (Go `base64.RawStdEncoding`)

The bytes are read as one big-endian number, shifted left to a multiple of six bits, and written
with 64-valued digits. Used only to show that hypotheses about the standard library can be met.
-/

namespace Memar.Base64
open Memar

/-- `k` digits of `n` in base `b`, most significant first. -/
def digits (b : Nat) : Nat → Nat → List Nat
  | 0, _ => []
  | k + 1, n => digits b k (n / b) ++ [n % b]

/-- The number written with the given digits. -/
def value (b : Nat) (l : List Nat) : Nat := l.foldl (fun a d => a * b + d) 0

theorem digits_length (b k n : Nat) : (digits b k n).length = k := by
  induction k generalizing n with
  | zero => rfl
  | succ k ih => simp [digits, ih]

theorem digits_lt (b : Nat) (hb : 0 < b) (k n : Nat) : ∀ d ∈ digits b k n, d < b := by
  induction k generalizing n with
  | zero => simp [digits]
  | succ k ih =>
    intro d hd
    simp [digits] at hd
    rcases hd with hd | hd
    · exact ih _ d hd
    · rw [hd]; exact Nat.mod_lt _ hb

theorem value_digits (b : Nat) (k n : Nat) (h : n < b ^ k) : value b (digits b k n) = n := by
  induction k generalizing n with
  | zero => simp at h; subst h; rfl
  | succ k ih =>
    have h1 : n / b < b ^ k := by
      rw [Nat.pow_succ, Nat.mul_comm] at h
      exact Nat.div_lt_of_lt_mul h
    have := ih (n / b) h1
    unfold value at this ⊢
    rw [digits, List.foldl_append, this]
    simp
    have := Nat.div_add_mod n b
    rw [Nat.mul_comm] at this
    exact this

/-- Induction from the end of a list. -/
theorem snoc_induction {α} {P : List α → Prop} (nil : P []) (append_singleton : ∀ l d, P l → P (l ++ [d]))
    (l : List α) : P l := by
  rw [← List.reverse_reverse l]
  induction l.reverse with
  | nil => exact nil
  | cons x r ih => rw [List.reverse_cons]; exact append_singleton _ _ ih

theorem value_append (b : Nat) (l : List Nat) (d : Nat) : value b (l ++ [d]) = value b l * b + d := by
  simp [value]

theorem value_lt (b : Nat) (l : List Nat) (h : ∀ d ∈ l, d < b) : value b l < b ^ l.length := by
  induction l using snoc_induction with
  | nil => simp [value]
  | append_singleton l d ih =>
    have h1 := ih fun x hx => h x (by simp [hx])
    have h2 := h d (by simp)
    rw [value_append, List.length_append, List.length_singleton, Nat.pow_succ]
    have : (value b l + 1) * b ≤ b ^ l.length * b := Nat.mul_le_mul_right _ h1
    rw [Nat.add_mul] at this
    omega

theorem digits_value (b : Nat) (l : List Nat) (h : ∀ d ∈ l, d < b) : digits b l.length (value b l) = l := by
  induction l using snoc_induction with
  | nil => rfl
  | append_singleton l d ih =>
    have h1 := ih fun x hx => h x (by simp [hx])
    have h2 := h d (by simp)
    rw [value_append, List.length_append, List.length_singleton, digits]
    have e1 : (value b l * b + d) / b = value b l := by
      rw [Nat.mul_comm, Nat.mul_add_div (by omega), Nat.div_eq_of_lt h2, Nat.add_zero]
    have e2 : (value b l * b + d) % b = d := by
      rw [Nat.mul_comm, Nat.mul_add_mod, Nat.mod_eq_of_lt h2]
    rw [e1, e2, h1]

/-- The standard alphabet. -/
def charOf (d : Nat) : Byte :=
  if d < 26 then BitVec.ofNat 8 (65 + d)
  else if d < 52 then BitVec.ofNat 8 (97 + (d - 26))
  else if d < 62 then BitVec.ofNat 8 (48 + (d - 52))
  else if d = 62 then ch '+' else ch '/'

def ofChar (c : Byte) : Option Nat := (List.range 64).find? fun d => charOf d = c

theorem ofChar_charOf (d : Nat) (h : d < 64) : ofChar (charOf d) = some d := by
  have : ∀ d : Fin 64, ofChar (charOf d) = some d.val := by decide +kernel
  exact this ⟨d, h⟩

/-- `base64.RawStdEncoding.Encode` -/
def encode (s : Bytes) : Bytes :=
  let m := (8 * s.length + 5) / 6
  (digits 64 m (value 256 (s.map BitVec.toNat) * 2 ^ (6 * m - 8 * s.length))).map charOf

/-- `base64.RawStdEncoding.Decode` -/
def decode (t : Bytes) : Option Bytes :=
  let n := 6 * t.length / 8
  if t.length % 4 = 1 then none
  else (t.mapM ofChar).map fun ds =>
    (digits 256 n (value 64 ds / 2 ^ (6 * t.length - 8 * n))).map (BitVec.ofNat 8)

theorem mapM_ofChar (l : List Nat) (h : ∀ d ∈ l, d < 64) : (l.map charOf).mapM ofChar = some l := by
  induction l with
  | nil => rfl
  | cons d l ih =>
    rw [List.map_cons, List.mapM_cons, ofChar_charOf d (h d (by simp)), ih fun x hx => h x (by simp [hx])]
    rfl

theorem encode_length (s : Bytes) : (encode s).length = (8 * s.length + 5) / 6 := by
  simp [encode, digits_length]

theorem decode_encode (s : Bytes) : decode (encode s) = some s := by
  have hlen := encode_length s
  have hval := value_lt 256 (s.map BitVec.toNat) (by
    intro d hd
    obtain ⟨c, _, rfl⟩ := List.mem_map.mp hd
    exact c.isLt)
  rw [List.length_map] at hval
  unfold decode
  rw [hlen]
  have hn : 6 * ((8 * s.length + 5) / 6) / 8 = s.length := by omega
  simp only [hn]
  rw [if_neg (by omega)]
  unfold encode
  simp only
  rw [mapM_ofChar _ (digits_lt 64 (by omega) _ _)]
  simp only [Option.map_some]
  rw [value_digits]
  · rw [Nat.mul_div_cancel _ (Nat.pow_pos (by omega))]
    congr 1
    have h := digits_value 256 (s.map BitVec.toNat) (by
      intro d hd
      obtain ⟨c, _, rfl⟩ := List.mem_map.mp hd
      exact c.isLt)
    rw [List.length_map] at h
    rw [h, List.map_map]
    have : (BitVec.ofNat 8 ∘ BitVec.toNat : Byte → Byte) = id := by funext c; simp
    rw [this, List.map_id]
  · have e1 : (64 : Nat) ^ ((8 * s.length + 5) / 6) = 256 ^ s.length * 2 ^ (6 * ((8 * s.length + 5) / 6) - 8 * s.length) := by
      rw [show (64 : Nat) = 2 ^ 6 from rfl, show (256 : Nat) = 2 ^ 8 from rfl, ← Nat.pow_mul, ← Nat.pow_mul, ← Nat.pow_add]
      congr 1
      omega
    rw [e1]
    exact Nat.mul_lt_mul_of_pos_right hval (Nat.pow_pos (by omega))

theorem encode_mem (s : Bytes) (c : Byte) (h : c ∈ encode s) : ∃ d < 64, c = charOf d := by
  unfold encode at h
  obtain ⟨d, hd, rfl⟩ := List.mem_map.mp h
  exact ⟨d, digits_lt 64 (by omega) _ _ d hd, rfl⟩

theorem decode_bad (t : Bytes) (c : Byte) (hc : c ∈ t) (h : ofChar c = none) : decode t = none := by
  unfold decode
  have : t.mapM ofChar = none := by
    induction t with
    | nil => cases hc
    | cons x t ih =>
      rw [List.mapM_cons]
      rcases List.mem_cons.mp hc with hc | hc
      · subst hc; rw [h]; rfl
      · rw [ih hc]; cases ofChar x <;> rfl
  simp only [this, Option.map_none]
  split <;> rfl

example : encode (bs "hello") = bs "aGVsbG8" ∧ decode (bs "aGVsbG8") = some (bs "hello") := by decide +kernel

end Memar.Base64
