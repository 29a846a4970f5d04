import Verif.Www.Assets
import Verif.Www.Lemmas
import Verif.File.Props

namespace Memar.Www.Assets
open Memar Memar.File Memar.Decimal

theorem put_same (w : World) (d : Dir) (n x : Bytes) : w.put d n x d n = some x := by simp [World.put]
theorem put_other (w : World) (d d' : Dir) (n m x : Bytes) (h : d' ≠ d ∨ m ≠ n) : w.put d n x d' m = w d' m := by
  simp only [World.put]; rw [if_neg]; rintro ⟨h1, h2⟩; rcases h with h | h <;> contradiction
theorem move_same (w : World) (d : Dir) (n n' : Bytes) : w.move d n n' d n' = w d n := by simp [World.move]
theorem move_old (w : World) (d : Dir) (n n' : Bytes) (h : n ≠ n') : w.move d n n' d n = none := by simp [World.move, h]
theorem move_other (w : World) (d d' : Dir) (n n' m : Bytes) (h : d' ≠ d ∨ (m ≠ n ∧ m ≠ n')) : w.move d n n' d' m = w d' m := by
  simp only [World.move]
  rw [if_neg, if_neg] <;> (rintro ⟨h1, h2⟩; rcases h with h | h; exact h h1)
  · exact h.1 h2
  · exact h.2 h2
theorem get_snd (w : World) (d : Dir) (n : Bytes) : (w.get d n).2 = (w d n).getD [] := by
  unfold World.get; split <;> simp_all
theorem get_same (w : World) (d : Dir) (n : Bytes) : (w.get d n).1 d n = some ((w d n).getD []) := by
  unfold World.get; split <;> simp_all [World.put]
theorem get_other (w : World) (d d' : Dir) (n m : Bytes) (h : d' ≠ d ∨ m ≠ n) : (w.get d n).1 d' m = w d' m := by
  unfold World.get; split
  · rfl
  · exact put_other _ _ _ _ _ _ h

/-- A file that was there keeps its contents when another one, or itself, is opened. -/
theorem get_some (w : World) (d d' : Dir) (n m x : Bytes) (h : w d' m = some x) : (w.get d n).1 d' m = some x := by
  by_cases hc : d' ≠ d ∨ m ≠ n
  · rw [get_other _ _ _ _ _ hc, h]
  · have h1 : d' = d := Decidable.byContradiction fun g => hc (.inl g)
    have h2 : m = n := Decidable.byContradiction fun g => hc (.inr g)
    subst h1 h2
    rw [get_same, h]; rfl

theorem compressLoop_other (d d' : Dir) (n m : Bytes) : ∀ (es : List (Option (Bytes × (Bytes → Bytes)))) (r : World × Bool),
    (d' ≠ d ∨ ∀ e f, some (e, f) ∈ es → m ≠ n ++ ch '.' :: e) → (compressLoop d n es r).1 d' m = r.1 d' m
  | [], _, _ => rfl
  | none :: es, (w, b), h => by
    rw [compressLoop, compressLoop_other d d' n m es _ (h.imp_right fun h e f he => h e f (by simp [he]))]
  | some (e, f) :: es, (w, b), h => by
    rw [compressLoop, compressLoop_other d d' n m es _ (h.imp_right fun h e f he => h e f (by simp [he]))]
    exact put_other _ _ _ _ _ _ (h.imp_right fun h => h e f (by simp))

theorem compress_other (E : Env) (w : World) (d d' : Dir) (n m : Bytes)
    (h : d' ≠ d ∨ ∀ e f, some (e, f) ∈ E.encs → m ≠ n ++ ch '.' :: e) : (compress E w d n).1 d' m = w d' m := by
  unfold compress; split
  · rfl
  · exact compressLoop_other d d' n m _ _ h

theorem compress_self (E : Env) (w : World) (d : Dir) (n : Bytes) : (compress E w d n).1 d n = w d n :=
  compress_other E w d d n n (.inr fun e f _ h => by have := congrArg List.length h; simp at this)

/-! ## names -/

theorem ext_split (n e : Bytes) (h : extension n = e) (he : e ≠ []) : ∃ a, n = a ++ ch '.' :: e ∧ ch '.' ∉ e := by
  have hd : ch '.' ∈ n := Decidable.byContradiction fun g => he (h.symm.trans ((C84_extension n).1 g))
  obtain ⟨a, b, hab, hb⟩ : ∃ a b, n = a ++ ch '.' :: b ∧ ch '.' ∉ b := by
    clear h
    induction n with
    | nil => simp at hd
    | cons x n ih =>
      by_cases hn : ch '.' ∈ n
      · obtain ⟨a, b, rfl, hb⟩ := ih hn
        exact ⟨x :: a, b, rfl, hb⟩
      · refine ⟨[], n, ?_, hn⟩
        have : ch '.' = x := by simpa [hn] using hd
        rw [this]; rfl
  have := (C84_extension n).2 a b hab hb
  rw [h] at this; subst this
  exact ⟨a, hab, hb⟩

theorem ext_of (a e : Bytes) (he : ch '.' ∉ e) : extension (a ++ ch '.' :: e) = e := (C84_extension _).2 a e rfl he

theorem baseName_of (a e : Bytes) (he : ch '.' ∉ e) : baseName (a ++ ch '.' :: e) = a ++ [ch '.'] := by
  rw [baseName, uriOf, C206_dot_violated _ a e he]; rfl

theorem hashName_of (E : Env) (a e data : Bytes) (he : ch '.' ∉ e) :
    hashName E (a ++ ch '.' :: e) data = a ++ ch '.' :: ch '-' :: decDigits (E.crc data).toNat ++ ch '.' :: e := by
  rw [hashName, hashedName, uriOf, C206_dot_violated _ a e he]
  simp [URI.rename, ext_of a e he]

/-- What stands before the first dot. -/
def stem (n : Bytes) : Bytes := n.takeWhile (· != ch '.')

theorem stem_of (a r : Bytes) (h : ch '.' ∉ a) : stem (a ++ ch '.' :: r) = a := by
  rw [stem, List.takeWhile_append_of_pos]
  · simp
  · intro x hx; simp; rintro rfl; exact h hx

theorem stem_append (a b r : Bytes) (h : stem a = b) (hd : ch '.' ∈ a) : stem (a ++ r) = b := by
  obtain ⟨x, y, rfl, hx⟩ : ∃ x y, a = x ++ ch '.' :: y ∧ ch '.' ∉ x := by
    cases hi : indexByte a (ch '.') with
    | none => exact absurd hd ((indexByte_none_iff _ _).1 hi)
    | some i => exact ⟨_, _, (indexByte_some a _ i hi).1, (indexByte_some a _ i hi).2.1⟩
  rw [stem_of x y hx] at h
  subst h
  rw [List.append_assoc, List.cons_append, stem_of _ _ hx]

theorem not_dot_append (a b : Bytes) (ha : ch '.' ∉ a) (hb : ch '.' ∉ b) : ch '.' ∉ a ++ b := by
  rw [List.mem_append]; rintro (h | h) <;> contradiction

theorem js_eq (l : Bytes) : bs "main-" ++ l ++ bs ".js" = (bs "main-" ++ l) ++ ch '.' :: bs "js" := by
  rw [show bs ".js" = ch '.' :: bs "js" by decide]
theorem html_eq (l : Bytes) : bs "main-" ++ l ++ bs ".html" = (bs "main-" ++ l) ++ ch '.' :: bs "html" := by
  rw [show bs ".html" = ch '.' :: bs "html" by decide]
theorem sw_eq (l : Bytes) : bs "sw-" ++ l ++ bs ".js" = (bs "sw-" ++ l) ++ ch '.' :: bs "js" := by
  rw [show bs ".js" = ch '.' :: bs "js" by decide]
theorem dot_main (l : Bytes) (h : ch '.' ∉ l) : ch '.' ∉ bs "main-" ++ l := not_dot_append _ _ (by decide) h
theorem dot_sw (l : Bytes) (h : ch '.' ∉ l) : ch '.' ∉ bs "sw-" ++ l := not_dot_append _ _ (by decide) h

/-! ## replacing -/

theorem indexOf_split (s m : Bytes) (i : Nat) (h : indexOf s m = some i) : s = s.take i ++ m ++ s.drop (i + m.length) := by
  induction s generalizing i with
  | nil =>
    unfold indexOf at h
    split at h
    · rename_i hp
      cases h
      have : m = [] := List.prefix_nil.mp (List.isPrefixOf_iff_prefix.mp hp)
      subst this; rfl
    · simp at h
  | cons x s ih =>
    unfold indexOf at h
    split at h
    · rename_i hp
      cases h
      obtain ⟨r, hr⟩ := List.isPrefixOf_iff_prefix.mp hp
      rw [← hr, List.take_zero, List.nil_append, Nat.zero_add, List.drop_left' rfl]
    · simp only [Option.map_eq_some_iff] at h
      obtain ⟨j, hj, rfl⟩ := h
      have := ih j hj
      rw [List.take_succ_cons, show j + 1 + m.length = j + m.length + 1 by omega, List.drop_succ_cons, List.cons_append, List.cons_append, ← this]

theorem replaceAllLoop_none (old new s : Bytes) (h : ¬ old <:+: s) (k : Nat) : replaceAllLoop old new k s = s := by
  cases k with
  | zero => rfl
  | succ k => rw [replaceAllLoop, (indexOf_nil_iff s old).2 h]

theorem replaceAll_none (s old new : Bytes) (h : ¬ old <:+: s) : replaceAll s old new = s := replaceAllLoop_none old new s h _

theorem replaceAllLoop_length (old : Bytes) : ∀ (k : Nat) (s : Bytes), ∃ b c : Nat, ∀ new : Bytes,
    (replaceAllLoop old new k s).length = b + c * new.length
  | 0, s => ⟨s.length, 0, fun _ => by simp [replaceAllLoop]⟩
  | k + 1, s => by
    cases hi : indexOf s old with
    | none => exact ⟨s.length, 0, fun new => by simp [replaceAllLoop, hi]⟩
    | some i =>
      obtain ⟨b, c, h⟩ := replaceAllLoop_length old k (s.drop (i + old.length))
      refine ⟨(s.take i).length + b, c + 1, fun new => ?_⟩
      simp only [replaceAllLoop, hi, List.length_append, h, Nat.add_mul]
      omega

/-- Two replacements for something that occurs give different texts. -/
theorem replaceAll_inj (s old a b : Bytes) (ho : old <:+: s) (h : replaceAll s old a = replaceAll s old b) : a = b := by
  unfold replaceAll at h
  cases hi : indexOf s old with
  | none => exact absurd ho ((indexOf_nil_iff s old).1 hi)
  | some i =>
    simp only [replaceAllLoop, hi] at h
    obtain ⟨x, c, hl⟩ := replaceAllLoop_length old s.length (s.drop (i + old.length))
    have e := congrArg List.length h
    simp only [List.length_append, hl] at e
    have hab : a.length = b.length := by
      rcases Nat.lt_trichotomy a.length b.length with g | g | g
      · have := Nat.mul_le_mul_left c (Nat.le_of_lt g); omega
      · exact g
      · have := Nat.mul_le_mul_left c (Nat.le_of_lt g); omega
    rw [List.append_assoc, List.append_assoc] at h
    exact (List.append_inj (List.append_cancel_left h) hab).1

end Memar.Www.Assets
