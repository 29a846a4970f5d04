import Verif.Buffer.Props

/-!
# Bytes that `GrowLen` adds (C72)
-/

namespace Memar.Buffer

/-- C202: the bytes that `GrowLen` adds are zero when it has to allocate, and after a first `GrowLen` on a nil buffer, whatever the two lengths are.
Missing: nil buffers, and that the added bytes are zero when the capacity suffices (refuted:
`C202_grow_len_nil_violated`, `C202_grow_len_stale_violated`). -/
theorem C202_grow_len_zeros_partial :
    (∀ (b : Flat) (s : Slice) (n : Nat), b.Wf → b.buf = some s → cap b < blen b + n →
      ∃ b', growLen b n = some (blen b, b') ∧ bytes b' = bytes b ++ List.replicate n 0#8) ∧
    (∀ (off : Nat) (n m : Nat), ∃ b1 b2, growLen ⟨none, off⟩ n = some (0, b1) ∧ growLen b1 m = some (0, b2) ∧
      bytes b2 = List.replicate m 0#8) := by
  have key : ∀ (b : Flat) (s : Slice) (n : Nat), b.Wf → b.buf = some s → cap b < blen b + n →
      ∃ b', growLen b n = some (blen b, b') ∧ bytes b' = bytes b ++ List.replicate n 0#8 := by
    intro b s n hb h hc
    have hs := hb s h
    simp only [cap, blen, h] at hc
    simp only [growLen, h, blen]
    rw [if_neg (by omega)]
    refine ⟨_, rfl, ?_⟩
    have hl : s.data.length = s.len := by simp [Slice.data]; omega
    have hr : (2 * (s.arr.length : Int) + n).toNat = 2 * s.arr.length + n := by omega
    have hr2 : ((s.len : Int) + n).toNat = s.len + n := by omega
    simp only [bytes, h, Slice.data, hr, hr2, goCopy] at hl ⊢
    simp only [List.length_replicate, List.drop_replicate, hl]
    generalize List.take s.len s.arr = d at hl ⊢
    rw [List.take_of_length_le (show d.length ≤ 2 * s.arr.length + n by omega), List.take_append, hl,
      List.take_of_length_le (by omega), List.take_replicate]
    congr 2; omega
  refine ⟨key, fun off n m => ?_⟩
  refine ⟨⟨some ⟨List.replicate (firstSize n).toNat 0#8, 0⟩, off⟩, ?_⟩
  by_cases hc : (m : Int) ≤ (List.replicate (firstSize n).toNat 0#8).length
  · refine ⟨⟨some ⟨List.replicate (firstSize n).toNat 0#8, m⟩, off⟩, rfl, ?_, ?_⟩
    · simp only [growLen]
      rw [if_pos (by omega), if_neg (by omega)]
      simp
    · simp only [bytes, Slice.data, List.take_replicate]
      rw [List.length_replicate] at hc
      congr 1; omega
  · have hw : (⟨some ⟨List.replicate (firstSize n).toNat 0#8, 0⟩, off⟩ : Flat).Wf := by
      intro s hs; cases hs; exact Nat.zero_le _
    obtain ⟨b2, e1, e2⟩ := key ⟨some ⟨List.replicate (firstSize n).toNat 0#8, 0⟩, off⟩ _ m hw rfl (by simp only [cap, blen]; omega)
    exact ⟨b2, rfl, e1, by rw [e2]; simp [bytes, Slice.data]⟩

example : growLen ⟨some ⟨[5#8, 6#8], 2⟩, 0⟩ 3 = some (2, ⟨some ⟨[5#8, 6#8, 0#8, 0#8, 0#8, 0#8, 0#8], 5⟩, 0⟩) := by decide +kernel

end Memar.Buffer
