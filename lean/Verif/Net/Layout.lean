import Verif.Net.Field

/-!
# Header layouts

A small specification language: a header is a table of fields, each with a position, a size in bytes
and a kind (a big-endian number or a plain byte string).
-/

namespace Memar.Net
open Memar Binary Binary.Spec

/-- A field value. -/
inductive Value
  | num (n : Nat)
  | arr (b : Bytes)
deriving DecidableEq, Repr

/-- How the bytes of a field are understood. -/
inductive Kind
  | be
  | raw
deriving DecidableEq, Repr

structure Loc where
  start : Nat
  size : Nat
  kind : Kind
deriving DecidableEq, Repr

/-- The value a byte string denotes. -/
def Kind.decode : Kind → Bytes → Value
  | .be, b => .num (beVal b)
  | .raw, b => .arr b

/-- The bytes of a value, for a field of `n` bytes. -/
def Kind.encode (n : Nat) : Kind → Value → Bytes
  | .be, .num k => beDigits n k
  | .raw, .arr b => b
  | _, _ => []

/-- The values a field can hold. -/
def Loc.Fits (l : Loc) : Value → Prop
  | .num k => l.kind = .be ∧ k < 256 ^ l.size
  | .arr b => l.kind = .raw ∧ b.length = l.size

/-- The value of a field in a packet. -/
def Loc.value (l : Loc) (p : Bytes) : Value := l.kind.decode (region p l.start l.size)

def Loc.Disjoint (a b : Loc) : Prop := a.start + a.size ≤ b.start ∨ b.start + b.size ≤ a.start

instance (a b : Loc) : Decidable (a.Disjoint b) := by unfold Loc.Disjoint; infer_instance

theorem Loc.encode_length (l : Loc) (v : Value) (h : l.Fits v) :
    (l.kind.encode l.size v).length = l.size := by
  obtain ⟨s, n, k⟩ := l
  cases v <;> cases k <;> simp [Loc.Fits] at h <;> simp [Kind.encode, beDigits_length, h]

/-- `p` with the field holding `v`. -/
def Loc.store (l : Loc) (p : Bytes) (v : Value) : Bytes :=
  overwrite p l.start (l.kind.encode l.size v)

theorem Loc.store_length (l : Loc) (p : Bytes) (v : Value) (hv : l.Fits v)
    (h : l.start + l.size ≤ p.length) : (l.store p v).length = p.length :=
  overwrite_length _ _ _ (by rw [l.encode_length v hv]; exact h)

theorem Loc.value_store (l : Loc) (p : Bytes) (v : Value) (hv : l.Fits v)
    (h : l.start + l.size ≤ p.length) : l.value (l.store p v) = v := by
  have hl := l.encode_length v hv
  have hr := region_overwrite_same p l.start (l.kind.encode l.size v) (by omega)
  rw [hl] at hr
  rw [Loc.value, Loc.store, hr]
  obtain ⟨s, n, k⟩ := l
  cases v <;> cases k <;> simp [Loc.Fits] at hv <;> simp [Kind.encode, Kind.decode, beVal_beDigits]
  exact Nat.mod_eq_of_lt hv

theorem Loc.value_store_disjoint (l m : Loc) (p : Bytes) (v : Value) (hv : l.Fits v)
    (h : l.start + l.size ≤ p.length) (hd : l.Disjoint m) : m.value (l.store p v) = m.value p := by
  have hl := l.encode_length v hv
  rw [Loc.value, Loc.value, Loc.store, region_overwrite_disjoint _ _ _ _ _ (by omega)]
  rw [hl]
  exact hd.symm

theorem Loc.sameOutside_store (l : Loc) (p : Bytes) (v : Value) (hv : l.Fits v)
    (h : l.start + l.size ≤ p.length) :
    SameOutside p (l.store p v) l.start (l.start + l.size) := by
  have hl := l.encode_length v hv
  have := sameOutside_overwrite p l.start (l.kind.encode l.size v) (by omega)
  rwa [hl] at this

/-! ## The accessor expressions in terms of layouts -/

theorem beVal_lt (l : Bytes) : beVal l < 256 ^ l.length := by
  have := leVal_lt l.reverse
  simpa [beVal] using this

def v8 (o : Option U8) : Option Value := o.map fun v => .num v.toNat
def v16 (o : Option U16) : Option Value := o.map fun v => .num v.toNat
def v32 (o : Option U32) : Option Value := o.map fun v => .num v.toNat
def vArr (o : Option Bytes) : Option Value := o.map .arr

theorem v16_get (p : Bytes) (i : Nat) (h : i + 2 ≤ p.length) :
    v16 (get16 p i) = some ((⟨i, 2, .be⟩ : Loc).value p) := by
  have := beVal_lt (region p i 2)
  rw [region_length p i 2 h] at this
  rw [get16_eq, if_pos h]
  simp only [v16, Option.map_some, Loc.value, Kind.decode, BitVec.toNat_ofNat]
  rw [Nat.mod_eq_of_lt (by omega)]

theorem v32_get (p : Bytes) (i : Nat) (h : i + 4 ≤ p.length) :
    v32 (get32 p i) = some ((⟨i, 4, .be⟩ : Loc).value p) := by
  have := beVal_lt (region p i 4)
  rw [region_length p i 4 h] at this
  rw [get32_eq, if_pos h]
  simp only [v32, Option.map_some, Loc.value, Kind.decode, BitVec.toNat_ofNat]
  rw [Nat.mod_eq_of_lt (by omega)]

theorem region_one (p : Bytes) (i : Nat) (h : i < p.length) : region p i 1 = [p[i]] := by
  apply List.ext_getElem?
  intro j
  rw [region_get]
  cases j with
  | zero => simp
  | succ n => simp

theorem v8_get (p : Bytes) (i : Nat) (h : i + 1 ≤ p.length) :
    v8 p[i]? = some ((⟨i, 1, .be⟩ : Loc).value p) := by
  rw [List.getElem?_eq_getElem (by omega)]
  simp [v8, Loc.value, Kind.decode, region_one p i (by omega), beVal, leVal]

theorem vArr_get (p : Bytes) (i n : Nat) (h : i + n ≤ p.length) :
    vArr (getArr p i n) = some ((⟨i, n, .raw⟩ : Loc).value p) := by
  rw [getArr_eq p i n h]; rfl

theorem put16_store (p : Bytes) (i k : Nat) (h : i + 2 ≤ p.length) (hk : k < 256 ^ 2) :
    put16 p i (BitVec.ofNat 16 k) = some ((⟨i, 2, .be⟩ : Loc).store p (.num k)) := by
  rw [put16_pos _ _ _ h, BitVec.toNat_ofNat, Nat.mod_eq_of_lt (by omega)]; rfl

theorem put32_store (p : Bytes) (i k : Nat) (h : i + 4 ≤ p.length) (hk : k < 256 ^ 4) :
    put32 p i (BitVec.ofNat 32 k) = some ((⟨i, 4, .be⟩ : Loc).store p (.num k)) := by
  rw [put32_pos _ _ _ h, BitVec.toNat_ofNat, Nat.mod_eq_of_lt (by omega)]; rfl

theorem setAt_store (p : Bytes) (i k : Nat) (h : i + 1 ≤ p.length) (hk : k < 256 ^ 1) :
    setAt p i (BitVec.ofNat 8 k) = some ((⟨i, 1, .be⟩ : Loc).store p (.num k)) := by
  rw [setAt_first _ _ _ (by omega)]
  simp [Loc.store, Kind.encode, beDigits, leDigits]

theorem putArr_store (p : Bytes) (i n : Nat) (d : Bytes) (h : i + n ≤ p.length)
    (hd : d.length = n) : putArr p i d = some ((⟨i, n, .raw⟩ : Loc).store p (.arr d)) :=
  putArr_eq _ _ _ (by omega)

end Memar.Net
