import Verif.Os.Model
import Verif.BaseLemmas

/-!
# `os/default`: replacing places of a file
-/

namespace Memar.Os
open Memar

/-- os/default/file.go:86-90 `ReplaceReq`; the positions are Go ints -/
structure ReplaceReq where
  data : Bytes
  start : Int
  stop : Int
  deriving DecidableEq, Repr

/-- `copy(f.data[i:], src)`: panics when `i` is not a position of the slice. -/
def copyAt (f : Bytes) (i : Int) (src : Bytes) : Option Bytes :=
  if i < 0 ∨ f.length < i then none else some (f.take i.toNat ++ goCopy (f.drop i.toNat) src)

/-- `f.data[i:]` -/
def fromAt (f : Bytes) (i : Int) : Option Bytes := if i < 0 ∨ f.length < i then none else some (f.drop i.toNat)

/-- os/default/file.go:101-108: `n` more bytes; zeros, or, when the capacity allows, what stands there, which is given by `junk`. -/
def enlarge (junk : Nat → Byte) (f : Bytes) (n : Int) : Bytes := if 0 < n then f ++ (List.range n.toNat).map junk else f

/-- os/default/file.go:114-117: `f.data[:len(f.data)+n]` for a negative `n` -/
def shorten (f : Bytes) (n : Int) : Option Bytes :=
  if n < 0 then (if f.length + n < 0 then none else some (f.take (f.length + n).toNat)) else some f

/-- os/default/file.go:99-117: one round of the loop, with the positions already moved. Go ints are unbounded here. -/
def replaceOne (junk : Nat → Byte) (f : Bytes) (d : Bytes) (start stop : Int) : Option Bytes :=
  let added : Int := d.length - (stop - start)
  let f := enlarge junk f added
  (fromAt f stop).bind fun tail =>
  (copyAt f (stop + added) tail).bind fun f =>
  (copyAt f start d).bind fun f => shorten f added

/-- os/default/file.go:93-119 `ReplaceLocation`; `total` is `totalAddedSize` -/
def replaceLoop (junk : Nat → Nat → Byte) : Nat → Int → Bytes → List ReplaceReq → Option Bytes
  | _, _, f, [] => some f
  | i, total, f, r :: rs =>
    (replaceOne (junk i) f r.data (r.start + total) (r.stop + total)).bind fun f =>
      replaceLoop junk (i + 1) (total + (r.data.length - (r.stop - r.start))) f rs

/-- os/default/file.go:93-119 `ReplaceLocation` -/
def replaceLocation (junk : Nat → Nat → Byte) (f : Bytes) (rs : List ReplaceReq) : Option Bytes := replaceLoop junk 0 0 f rs

/-! ## Specification -/

namespace RSpec

/-- The text with each range replaced, from position `pos` on; all positions are those of the original text. -/
def replaced (text : Bytes) : Nat → List ReplaceReq → Bytes
  | pos, [] => text.drop pos
  | pos, r :: rs => (text.take r.start.toNat).drop pos ++ r.data ++ replaced text r.stop.toNat rs

/-- The ranges lie in the text, in order, and do not overlap. -/
def InOrder (len : Nat) : Nat → List ReplaceReq → Prop
  | _, [] => True
  | pos, r :: rs => (pos : Int) ≤ r.start ∧ r.start ≤ r.stop ∧ r.stop ≤ len ∧ InOrder len r.stop.toNat rs

end RSpec

/-! ## Proofs -/

theorem goCopy_over {α} (x y d : List α) (h : x.length = d.length) : goCopy (x ++ y) d = d ++ y := by
  unfold goCopy
  rw [← h, List.drop_left, List.take_of_length_le (by rw [List.length_append]; omega)]

theorem replaceOne_eq (junk : Nat → Byte) (a b c d : Bytes) :
    replaceOne junk (a ++ b ++ c) d a.length (a.length + b.length) = some (a ++ d ++ c) := by
  unfold replaceOne
  simp only []
  by_cases h : (0 : Int) < (d.length : Int) - ((a.length : Int) + b.length - a.length)
  · obtain ⟨k, hk⟩ : ∃ k : Nat, d.length = b.length + k := ⟨d.length - b.length, by omega⟩
    have e1 : (d.length : Int) - ((a.length : Int) + b.length - a.length) = k := by omega
    rw [e1] at h ⊢
    have hj : ((List.range (k : Int).toNat).map junk).length = k := by simp
    simp only [enlarge, if_pos h, fromAt, copyAt, shorten]
    generalize (List.range (k : Int).toNat).map junk = j at hj
    rw [if_neg (by simp; omega), Option.bind_some, if_neg (by simp; omega), Option.bind_some]
    have p1 : ((a.length : Int) + b.length).toNat = (a ++ b).length := by simp; omega
    have p2 : ((a.length : Int) + b.length + k).toNat = a.length + d.length := by omega
    rw [p1, p2]
    have q1 : List.drop (a ++ b).length (a ++ b ++ c ++ j) = c ++ j := by rw [List.append_assoc (a ++ b), List.drop_left]
    rw [q1]
    have q2 : goCopy (List.drop (a.length + d.length) (a ++ b ++ c ++ j)) (c ++ j) = c := by
      unfold goCopy
      rw [List.drop_eq_nil_of_le (as := List.drop (a.length + d.length) (a ++ b ++ c ++ j)) (by simp; omega), List.append_nil,
        List.take_append_of_le_length (by simp; omega), List.take_of_length_le (by simp; omega)]
    rw [q2]
    have l1 : (List.take (a.length + d.length) (a ++ b ++ c ++ j)).length = a.length + d.length := by simp; omega
    rw [if_neg (by rw [List.length_append, l1]; omega), Option.bind_some, if_neg (by omega)]
    have p3 : ((a.length : Int)).toNat = a.length := by omega
    rw [p3, List.take_append_of_le_length (by omega), List.drop_append_of_le_length (by omega), List.take_take, Nat.min_eq_left (by omega)]
    rw [List.append_assoc a, List.append_assoc a, List.take_left]
    have l3 : (List.drop a.length (List.take (a.length + d.length) (a ++ (b ++ c ++ j)))).length = d.length := by
      simp only [List.length_append, List.length_take, List.length_drop]; omega
    rw [goCopy_over _ _ _ l3]
    simp
  · obtain ⟨k, hk⟩ : ∃ k : Nat, b.length = d.length + k := ⟨b.length - d.length, by omega⟩
    have e1 : (d.length : Int) - ((a.length : Int) + b.length - a.length) = -k := by omega
    rw [e1] at h ⊢
    simp only [enlarge, if_neg h, fromAt, copyAt]
    rw [if_neg (by simp; omega), Option.bind_some, if_neg (by simp; omega), Option.bind_some]
    have p1 : ((a.length : Int) + b.length).toNat = (a ++ b).length := by simp; omega
    have p2 : ((a.length : Int) + b.length + -k).toNat = a.length + d.length := by omega
    rw [p1, p2, List.drop_left]
    obtain ⟨rest, q2, l2⟩ : ∃ rest, goCopy (List.drop (a.length + d.length) (a ++ b ++ c)) c = c ++ rest ∧ rest.length = k := by
      refine ⟨List.drop c.length (List.drop (a.length + d.length) (a ++ b ++ c)), ?_, by simp; omega⟩
      unfold goCopy
      rw [List.take_of_length_le (by simp; omega)]
    rw [q2]
    have l1 : (List.take (a.length + d.length) (a ++ b ++ c)).length = a.length + d.length := by simp; omega
    rw [if_neg (by rw [List.length_append, l1]; omega), Option.bind_some]
    have p3 : ((a.length : Int)).toNat = a.length := by omega
    rw [p3, List.take_append_of_le_length (by omega), List.drop_append_of_le_length (by omega), List.take_take, Nat.min_eq_left (by omega)]
    rw [List.append_assoc a, List.take_left]
    have q3 : goCopy (List.drop a.length (List.take (a.length + d.length) (a ++ (b ++ c))) ++ (c ++ rest)) d = d ++ (c ++ rest) := by
      have l3 : (List.drop a.length (List.take (a.length + d.length) (a ++ (b ++ c)))).length = d.length := by
        simp only [List.length_append, List.length_take, List.length_drop]; omega
      exact goCopy_over _ _ _ l3
    rw [q3]
    unfold shorten
    split
    · rw [if_neg (by simp; omega)]
      have : ((a ++ (d ++ (c ++ rest))).length + -(k : Int)).toNat = (a ++ d ++ c).length := by simp; omega
      rw [this, show a ++ (d ++ (c ++ rest)) = a ++ d ++ c ++ rest by simp, List.take_left]
    · have : rest = [] := List.length_eq_zero_iff.mp (by omega)
      simp [this]

theorem replaceLoop_eq (junk : Nat → Nat → Byte) (text : Bytes) (rs : List ReplaceReq) : ∀ (i pos : Nat) (pre : Bytes),
    pos ≤ text.length → RSpec.InOrder text.length pos rs →
    replaceLoop junk i ((pre.length : Int) - pos) (pre ++ text.drop pos) rs = some (pre ++ RSpec.replaced text pos rs) := by
  induction rs with
  | nil => intro i pos pre _ _; rfl
  | cons r rs ih =>
    intro i pos pre hp ho
    obtain ⟨h1, h2, h3, h4⟩ := ho
    obtain ⟨s, hs⟩ : ∃ s : Nat, r.start = s := ⟨r.start.toNat, by omega⟩
    obtain ⟨e, he⟩ : ∃ e : Nat, r.stop = e := ⟨r.stop.toNat, by omega⟩
    rw [hs] at h1 h2
    rw [he] at h2 h3 h4
    have hse : s ≤ e := by omega
    have hel : e ≤ text.length := by omega
    have hps : pos ≤ s := by omega
    have hsplit : pre ++ text.drop pos = (pre ++ (text.take s).drop pos) ++ (text.take e).drop s ++ text.drop e := by
      rw [List.append_assoc, List.append_assoc]
      congr 1
      have a1 : text.drop pos = ((text.take s) ++ text.drop s).drop pos := by rw [List.take_append_drop]
      rw [a1, List.drop_append_of_le_length (by simp; omega)]
      congr 1
      have a2 : text.drop s = ((text.take e) ++ text.drop e).drop s := by rw [List.take_append_drop]
      rw [a2, List.drop_append_of_le_length (by simp; omega)]
    have la : (pre ++ (text.take s).drop pos).length = pre.length + (s - pos) := by simp; omega
    have lb : ((text.take e).drop s).length = e - s := by simp; omega
    have key := replaceOne_eq (junk i) (pre ++ (text.take s).drop pos) ((text.take e).drop s) (text.drop e) r.data
    rw [la, lb] at key
    rw [replaceLoop, hs, he, hsplit]
    have x1 : (s : Int) + ((pre.length : Int) - pos) = ((pre.length + (s - pos) : Nat) : Int) := by omega
    have x2 : (e : Int) + ((pre.length : Int) - pos) = ((pre.length + (s - pos) : Nat) : Int) + ((e - s : Nat) : Int) := by omega
    rw [x1, x2, key, Option.bind_some]
    have hn := ih (i + 1) e (pre ++ (text.take s).drop pos ++ r.data) hel h4
    have x3 : ((pre ++ (text.take s).drop pos ++ r.data).length : Int) - e =
        (pre.length : Int) - pos + (r.data.length - ((e : Int) - s)) := by
      rw [List.length_append, la]; omega
    rw [x3] at hn
    rw [hn, RSpec.replaced, hs, he]
    simp

/-- **C128**: replacing places of a file, given by their positions in the file as it was, in order and without overlap, gives exactly the
text with each of these places replaced, whether the new pieces are longer or shorter, whatever stands behind the
end of the slice, and never panics. -/
theorem C128_replace_location (junk : Nat → Nat → Byte) (text : Bytes) (rs : List ReplaceReq) (h : RSpec.InOrder text.length 0 rs) :
    replaceLocation junk text rs = some (RSpec.replaced text 0 rs) := by
  have := replaceLoop_eq junk text rs 0 0 [] (by omega) h
  simpa [replaceLocation] using this

example : RSpec.InOrder 6 0 [⟨bs "xyz", 1, 2⟩, ⟨[], 3, 5⟩] ∧
    replaceLocation (fun _ _ => 9) (bs "abcdef") [⟨bs "xyz", 1, 2⟩, ⟨[], 3, 5⟩] = some (bs "axyzcf") := by
  refine ⟨by simp [RSpec.InOrder], by decide⟩

/-- C258 violated: the places must be given in order. For two places given last first, the second one is moved although it lies before
the first: replacing one byte by two at position 2 and then one by one at position 0 changes the byte at 1. -/
theorem C258_order_violated (junk : Nat → Nat → Byte) (a b c x y z : Byte) :
    replaceLocation junk [a, b, c] [⟨[x, y], 2, 3⟩, ⟨[z], 0, 1⟩] = some [a, z, x, y] := by
  have h1 := replaceOne_eq (junk 0) [a, b] [c] [] [x, y]
  have h2 := replaceOne_eq (junk 1) [a] [b] [x, y] [z]
  simp only [List.cons_append, List.nil_append, List.append_nil, List.length_cons, List.length_nil] at h1 h2
  simp only [replaceLocation, replaceLoop]
  rw [show (2 : Int) + 0 = ((0 + 1 + 1 : Nat) : Int) from rfl, show (3 : Int) + 0 = ((0 + 1 + 1 : Nat) : Int) + ((0 + 1 : Nat) : Int) from rfl, h1,
    Option.bind_some]
  simp only [List.length_cons, List.length_nil]
  rw [show (0 : Int) + (0 + (((0 + 1 + 1 : Nat) : Int) - (3 - 2))) = ((0 + 1 : Nat) : Int) from rfl,
    show (1 : Int) + (0 + (((0 + 1 + 1 : Nat) : Int) - (3 - 2))) = ((0 + 1 : Nat) : Int) + ((0 + 1 : Nat) : Int) from rfl, h2, Option.bind_some]

end Memar.Os
