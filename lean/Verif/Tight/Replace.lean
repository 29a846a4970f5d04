import Verif.Os.Replace

/-!
# More about replacing places of a file (C128)
-/

namespace Memar.Os
open Memar

/-- C258 violated: a place that does not lie in the file is not refused but panics: one that begins or ends before the file, or that ends so far after it
that the file would not reach there even with the bytes that are added. -/
theorem C258_outside_violated (junk : Nat → Nat → Byte) (f : Bytes) (r : ReplaceReq)
    (h : r.start < 0 ∨ r.stop < 0 ∨ ((f.length : Int) < r.stop ∧ (f.length : Int) < r.start + r.data.length)) : replaceLocation junk f [r] = none := by
  have hr : replaceOne (junk 0) f r.data (r.start + 0) (r.stop + 0) = none := by
    rw [Int.add_zero, Int.add_zero]
    unfold replaceOne
    simp only []
    have he : ((enlarge (junk 0) f (r.data.length - (r.stop - r.start))).length : Int) = f.length + max 0 (r.data.length - (r.stop - r.start)) := by
      unfold enlarge
      split
      · simp; omega
      · omega
    generalize enlarge (junk 0) f (r.data.length - (r.stop - r.start)) = g at he
    cases h1 : fromAt g r.stop with
    | none => rfl
    | some tail =>
      have b1 : ¬ (r.stop < 0 ∨ g.length < r.stop) := fun hx => by simp [fromAt, hx] at h1
      rw [Option.bind_some]
      cases h2 : copyAt g (r.stop + (r.data.length - (r.stop - r.start))) tail with
      | none => rfl
      | some g2 =>
        have b2 : ¬ (r.stop + (r.data.length - (r.stop - r.start)) < 0 ∨ g.length < r.stop + (r.data.length - (r.stop - r.start))) :=
          fun hx => by simp [copyAt, hx] at h2
        rw [Option.bind_some, copyAt, if_pos (by omega)]
        rfl
  rw [replaceLocation, replaceLoop, hr]
  rfl

/-- Places that touch each other, that are empty, or that end with the file are in order. -/
example : RSpec.InOrder 3 0 [⟨bs "xy", 0, 0⟩, ⟨[], 0, 2⟩, ⟨bs "z", 2, 3⟩, ⟨bs "w", 3, 3⟩] ∧
    replaceLocation (fun _ _ => 9) (bs "abc") [⟨bs "xy", 0, 0⟩, ⟨[], 0, 2⟩, ⟨bs "z", 2, 3⟩, ⟨bs "w", 3, 3⟩] = some (bs "xyzw") := by
  refine ⟨by simp [RSpec.InOrder], by decide⟩

example : replaceLocation (fun _ _ => 9) (bs "abc") [⟨bs "x", -1, 1⟩] = none := C258_outside_violated _ _ _ (Or.inl (by decide))

/-- C258 violated for every two places given last first: the second place is moved by what the first one added, although it lies
before it.  What is replaced is the place `moved` bytes further on; it is the right one only if nothing was added. -/
theorem C258_order_any_violated (junk : Nat → Nat → Byte) (text d1 d2 : Bytes) (k l i j moved : Nat)
    (h1 : k ≤ l) (h2 : l ≤ i) (h3 : i ≤ j) (h4 : j ≤ text.length) (hm : d1.length = j - i + moved) :
    replaceLocation junk text [⟨d1, i, j⟩, ⟨d2, k, l⟩] =
      some ((text.take i ++ d1 ++ text.drop j).take (k + moved) ++ d2 ++
        (text.take i ++ d1 ++ text.drop j).drop (l + moved)) := by
  have one : ∀ (jk : Nat → Byte) (t d : Bytes) (a b : Nat), a ≤ b → b ≤ t.length →
      replaceOne jk t d a b = some (t.take a ++ d ++ t.drop b) := by
    intro jk t d a b hab hb
    have := replaceOne_eq jk (t.take a) ((t.take b).drop a) (t.drop b) d
    have l1 : (t.take a).length = a := by simp; omega
    have l2 : ((t.take b).drop a).length = b - a := by simp; omega
    have e : t.take a ++ (t.take b).drop a ++ t.drop b = t := by
      have : t.take a = (t.take b).take a := by rw [List.take_take, Nat.min_eq_left hab]
      rw [this, List.take_append_drop, List.take_append_drop]
    rw [l1, l2, e] at this
    rw [show (b : Int) = (a : Int) + ((b - a : Nat) : Int) by omega]
    exact this
  simp only [replaceLocation, replaceLoop]
  rw [Int.add_zero, Int.add_zero, one _ _ _ _ _ h3 h4, Option.bind_some]
  have x1 : (k : Int) + (0 + ((d1.length : Int) - ((j : Int) - i))) = ((k + moved : Nat) : Int) := by omega
  have x2 : (l : Int) + (0 + ((d1.length : Int) - ((j : Int) - i))) = ((l + moved : Nat) : Int) := by omega
  rw [x1, x2, one _ _ _ _ _ (by omega) (by simp; omega), Option.bind_some]

/-- "d" is replaced by "XYZ", which adds two bytes; then "b" was to be replaced, but "X" is. -/
example : replaceLocation (fun _ _ => 9) (bs "abcdef") [⟨bs "XYZ", 3, 4⟩, ⟨bs "-", 1, 2⟩] = some (bs "abc-YZef") := by
  decide +kernel

end Memar.Os
