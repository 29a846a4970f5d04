import Verif.Validators.Props
import Verif.Timer.WhenProps
import Verif.Http.CookieProps
import Verif.File.Props
import Verif.Time.ClockProps

/-!
# C26, C53, C59, C84, C168: exactly which inputs the refutations cover
-/

namespace Memar.Validators
open Memar

/-- C185 violated on every number of odd length: with a payload of even length the second function doubles exactly the
digits it should not, so that the check digit it returns is that of the other parity, the number is accepted if it
ends with that digit, and the digit is the right one only if both sums happen to agree in the last place. -/
theorem C185_checksum_odd_any_violated (ds : List Nat) (h : Digits ds) (c : Nat) (hc : c < 10)
    (heven : ds.length % 2 = 0) :
    ∃ d < 10, luhnAlgorithmChecksum (text (ds ++ [c])) = some (decide (c = d), BitVec.ofNat 8 (48 + d)) ∧
      (d + luhnSum false ds.reverse) % 10 = 0 ∧
      (LuhnValid (ds ++ [d]) ↔ luhnSum true ds.reverse % 10 = luhnSum false ds.reverse % 10) := by
  have hs := checksumSum_text ds h
  rw [heven] at hs
  let d := (10 - luhnSum false ds.reverse % 10) % 10
  have hd : d < 10 := by omega
  have e1 : text (ds ++ [c]) = text ds ++ [BitVec.ofNat 8 (48 + c)] := by simp [text]
  have hv : LuhnValid (ds ++ [d]) ↔ (d + luhnSum true ds.reverse) % 10 = 0 := by simp [LuhnValid, luhnSum]
  refine ⟨d, hd, ?_, by omega, by rw [hv]; omega⟩
  simp only [luhnAlgorithmChecksum, e1, List.getLast?_append, List.getLast?_singleton,
    Option.some_or, List.dropLast_concat, hs]
  simp only [show ((0 : Nat) == 1) = false from rfl]
  have e2 : BitVec.ofNat 8 ((10 - luhnSum false ds.reverse % 10) % 10 + 48)
      = BitVec.ofNat 8 (48 + d) := by rw [Nat.add_comm]
  rw [e2]
  congr 2
  have inj : ∀ x < 10, ∀ y < 10, ((BitVec.ofNat 8 (48 + x) == BitVec.ofNat 8 (48 + y)) = true ↔ x = y) := by
    decide +kernel
  rw [Bool.eq_iff_iff, inj d hd c hc, decide_eq_true_iff]
  exact eq_comm

example : luhnAlgorithmChecksum (text [1, 2, 2]) = some (false, ch '6') ∧
    luhnAlgorithmChecksum (text [1, 2, 6]) = some (true, ch '6') ∧ luhnSum false [6, 2, 1] % 10 ≠ 0 ∧
    luhnAlgorithmChecksum (text [9, 0, 1]) = some (true, ch '1') ∧ luhnSum false [1, 0, 9] % 10 = 0 := by decide +kernel

end Memar.Validators

namespace Memar.Timer
open Memar

/-- **C59** violated for every late timer: run at least one period late, a periodic timer gets the deadline that lies as
many whole periods before the missed one (but one) as it is late; and if that is before the beginning of time it gets
the last moment there is, so that it never runs again. -/
theorem C59_late_exact_violated (tWhen period now : U64) (hw : 0 ≤ tWhen.toInt) (hp : 0 < period.toInt)
    (hlate : tWhen.toInt + period.toInt ≤ now.toInt) :
    (nextWhen tWhen period now).toInt =
      if tWhen.toInt + period.toInt < period.toInt * ((now.toInt - tWhen.toInt) / period.toInt) then maxInt64
      else tWhen.toInt - period.toInt * ((now.toInt - tWhen.toInt) / period.toInt - 1) := by
  have hn := BitVec.toInt_lt (x := now)
  have hmulsub : period.toInt * (1 - (now.toInt - tWhen.toInt) / period.toInt)
      = period.toInt - period.toInt * ((now.toInt - tWhen.toInt) / period.toInt) := by
    rw [Int.mul_sub, Int.mul_one]
  have hmulsub' : period.toInt * ((now.toInt - tWhen.toInt) / period.toInt - 1)
      = period.toInt * ((now.toInt - tWhen.toInt) / period.toInt) - period.toInt := by
    rw [Int.mul_sub, Int.mul_one]
  by_cases hx : 0 ≤ tWhen.toInt + period.toInt * (1 - (now.toInt - tWhen.toInt) / period.toInt)
  · have h := nextWhen_toInt tWhen period now hw hp (by omega) (by unfold maxInt64; omega) hx
    rw [h, if_neg (by omega)]
    omega
  · rw [if_pos (by omega)]
    have hd : (now - tWhen).toInt = now.toInt - tWhen.toInt := by
      rw [BitVec.toInt_sub, Int.bmod_eq_of_le] <;> omega
    have hneg : (-(now - tWhen)).toInt = -(now.toInt - tWhen.toInt) := by
      rw [BitVec.toInt_neg, hd, Int.bmod_eq_of_le] <;> omega
    have hq0 : 0 ≤ (now.toInt - tWhen.toInt) / period.toInt := Int.ediv_nonneg (by omega) (by omega)
    have hq1 : (now.toInt - tWhen.toInt) / period.toInt ≤ now.toInt - tWhen.toInt := Int.ediv_le_self _ (by omega)
    have hq2 : period.toInt * ((now.toInt - tWhen.toInt) / period.toInt) ≤ now.toInt - tWhen.toInt :=
      Int.mul_ediv_self_le (by omega)
    have hdiv : ((-(now - tWhen)).sdiv period).toInt = -((now.toInt - tWhen.toInt) / period.toInt) := by
      rw [BitVec.toInt_sdiv, hneg, Int.neg_tdiv, Int.tdiv_eq_ediv_of_nonneg (by omega),
        Int.bmod_eq_of_le] <;> omega
    generalize (now.toInt - tWhen.toInt) / period.toInt = q at *
    have hone : (1#64 + (-(now - tWhen)).sdiv period).toInt = 1 - q := by
      rw [BitVec.toInt_add, hdiv, show (1#64 : U64).toInt = 1 from by decide, Int.bmod_eq_of_le] <;> omega
    have hmul : (period * (1#64 + (-(now - tWhen)).sdiv period)).toInt = period.toInt * (1 - q) := by
      rw [BitVec.toInt_mul, hone, Int.bmod_eq_of_le] <;> omega
    have hsum : (tWhen + period * (1#64 + (-(now - tWhen)).sdiv period)).toInt
        = tWhen.toInt + period.toInt * (1 - q) := by
      rw [BitVec.toInt_add, hmul, Int.bmod_eq_of_le] <;> omega
    unfold nextWhen
    simp only
    have hl : (tWhen + period * (1#64 + (-(now - tWhen)).sdiv period)).slt 0#64 = true := by
      simp only [BitVec.slt, hsum]; simp; omega
    rw [hl, if_pos rfl]
    decide

/-- Three and a half periods late: two periods before the missed deadline. Twenty periods late: never again. -/
example : (nextWhen 1000#64 100#64 1350#64).toInt = 800 ∧ (nextWhen 1000#64 100#64 3000#64).toInt = maxInt64 := by
  decide

end Memar.Timer

namespace Memar.Http
open Memar

/-- The walk over a line with an `=` in it, by what stands before and after the first one. -/
theorem next_at (A C : Bytes) (hA : ch '=' ∉ A) :
    cookiesNext (A ++ ch '=' :: C) = none ↔
      A ≠ [] ∧ C ≠ [] ∧ (ch ';' ∈ A ∨ (ch ';' ∉ A ∧ ∃ c, C = c ++ [ch ';'] ∧ ch ';' ∉ c)) := by
  have hi := indexByte_append A C (ch '=') hA
  have hlen : (A ++ ch '=' :: C).length = A.length + (C.length + 1) := by simp
  unfold cookiesNext Cookie.unmarshalFrom
  rw [if_neg (by omega), hi]
  dsimp only
  by_cases hA0 : A = []
  · subst hA0; simp
  by_cases hC0 : C = []
  · subst hC0; simp
  have la : 0 < A.length := List.length_pos_iff.mpr hA0
  have lc : 0 < C.length := List.length_pos_iff.mpr hC0
  rw [if_neg (by omega)]
  have hsimp : ∀ X : Prop, (A ≠ [] ∧ C ≠ [] ∧ X) ↔ X := fun X => ⟨fun h => h.2.2, fun h => ⟨hA0, hC0, h⟩⟩
  rw [hsimp]
  have done : ∀ (x : Cookie × Bytes), ¬ ((do
      let (cookie, remain) ← some x
      if remain.length > 0 then some (cookie, true, remain) else some (cookie, false, A ++ ch '=' :: C)) :
        Option (Cookie × Bool × Bytes)) = none := by
    intro x
    simp only [Option.bind_eq_bind, Option.bind_some]
    split <;> simp
  by_cases hs : ch ';' ∈ A
  · have : ∃ i, indexByte A (ch ';') = some i := by
      cases h : indexByte A (ch ';') with
      | none => exact absurd hs ((indexByte_none_iff _ _).mp h)
      | some i => exact ⟨i, rfl⟩
    obtain ⟨i, hi'⟩ := this
    obtain ⟨e1, e2, e3⟩ := indexByte_some A _ i hi'
    have e4 : A ++ ch '=' :: C = A.take i ++ ch ';' :: (A.drop (i + 1) ++ ch '=' :: C) := by
      conv => lhs; rw [e1]
      simp
    have e5 : indexByte (A ++ ch '=' :: C) (ch ';') = some i := by
      rw [e4, indexByte_append _ _ _ e2, List.length_take, Nat.min_eq_left (by omega)]
    rw [e5]
    dsimp only
    have : slice (A ++ ch '=' :: C) (A.length + 1) i = none := by unfold slice; rw [if_neg (by omega)]
    rw [this]
    simp [hs]
  · cases hc : indexByte C (ch ';') with
    | none =>
      have h2 : ch ';' ∉ C := (indexByte_none_iff _ _).mp hc
      have : indexByte (A ++ ch '=' :: C) (ch ';') = none := by
        rw [indexByte_none_iff]
        intro h
        rcases List.mem_append.mp h with h | h
        · exact hs h
        · rcases List.mem_cons.mp h with h | h
          · exact absurd h (by decide)
          · exact h2 h
      rw [this]
      constructor
      · intro h; exact absurd h (done _)
      · rintro (h | ⟨_, c, e, _⟩)
        · exact absurd h hs
        · exact absurd (by rw [e]; simp) h2
    | some i =>
      obtain ⟨e1, e2, e3⟩ := indexByte_some C _ i hc
      have e4 : A ++ ch '=' :: C = (A ++ ch '=' :: C.take i) ++ ch ';' :: C.drop (i + 1) := by
        conv => lhs; rw [e1]
        simp
      have e6 : ch ';' ∉ A ++ ch '=' :: C.take i := by
        intro h
        rcases List.mem_append.mp h with h | h
        · exact hs h
        · rcases List.mem_cons.mp h with h | h
          · exact absurd h (by decide)
          · exact e2 h
      have e5 : indexByte (A ++ ch '=' :: C) (ch ';') = some (A.length + 1 + i) := by
        rw [e4, indexByte_append _ _ _ e6, List.length_append, List.length_cons, List.length_take,
          Nat.min_eq_left (by omega)]
        congr 1; omega
      rw [e5]
      dsimp only
      have : slice (A ++ ch '=' :: C) (A.length + 1) (A.length + 1 + i) =
          some (((A ++ ch '=' :: C).take (A.length + 1 + i)).drop (A.length + 1)) := by
        unfold slice; rw [if_pos (by omega)]
      rw [this]
      by_cases hlast : i + 1 = C.length
      · have : sliceFrom (A ++ ch '=' :: C) (A.length + 1 + i + 2) = none := by
          unfold sliceFrom; rw [if_neg (by omega)]
        rw [this]
        constructor
        · intro _
          right
          refine ⟨hs, C.take i, ?_, e2⟩
          conv => lhs; rw [e1]
          rw [List.drop_eq_nil_of_le (by omega)]
        · intro _; rfl
      · have : sliceFrom (A ++ ch '=' :: C) (A.length + 1 + i + 2) =
            some ((A ++ ch '=' :: C).drop (A.length + 1 + i + 2)) := by
          unfold sliceFrom; rw [if_pos (by omega)]
        rw [this]
        constructor
        · intro h; exact absurd h (done _)
        · rintro (h | ⟨_, c, e, h⟩)
          · exact absurd h hs
          · exfalso
            rw [e, indexByte_append c [] _ h] at hc
            injection hc with hc
            rw [e] at hlast
            simp at hlast
            omega

/-- C249 violated, exactly: the walk over a `Cookie` line panics on precisely the lines in which a semicolon stands
before the first `=` (and something after the `=`), and those whose first cookie has a name and is ended by a
semicolon that is the last byte. -/
theorem C249_walk_panics_exactly_violated (cs : Bytes) :
    cookiesNext cs = none ↔
      (∃ a b c, cs = a ++ ch ';' :: (b ++ ch '=' :: c) ∧ ch '=' ∉ a ∧ ch '=' ∉ b ∧ c ≠ []) ∨
      (∃ a c, cs = a ++ ch '=' :: (c ++ [ch ';']) ∧ a ≠ [] ∧ ch '=' ∉ a ∧ ch ';' ∉ a ∧ ch ';' ∉ c) := by
  constructor
  · intro h
    cases he : indexByte cs (ch '=') with
    | none =>
      unfold cookiesNext Cookie.unmarshalFrom at h
      rw [he] at h
      split at h
      · cases h
      · simp at h
    | some i =>
      obtain ⟨e1, e2, _⟩ := indexByte_some cs _ i he
      rw [e1, next_at _ _ e2] at h
      obtain ⟨h1, h2, h3 | ⟨h3, c, h4, h5⟩⟩ := h
      · obtain ⟨a, b, e⟩ := List.append_of_mem h3
        left
        refine ⟨a, b, cs.drop (i + 1), ?_, ?_, ?_, h2⟩
        · conv => lhs; rw [e1]
          rw [e]; simp
        · intro hc; exact e2 (by rw [e]; simp [hc])
        · intro hc; exact e2 (by rw [e]; simp [hc])
      · right
        refine ⟨cs.take i, c, ?_, h1, e2, h3, h5⟩
        conv => lhs; rw [e1]
        rw [h4]
  · rintro (⟨a, b, c, e, ha, hb, hc⟩ | ⟨a, c, e, ha, h1, h2, h3⟩)
    · have : cs = (a ++ ch ';' :: b) ++ ch '=' :: c := by rw [e]; simp
      rw [this, next_at]
      · exact ⟨by simp, hc, Or.inl (by simp)⟩
      · intro h
        rcases List.mem_append.mp h with h | h
        · exact ha h
        · rcases List.mem_cons.mp h with h | h
          · exact absurd h (by decide)
          · exact hb h
    · rw [e, next_at _ _ h1]
      exact ⟨ha, by simp, Or.inr ⟨h2, c, rfl, h3⟩⟩

example : cookiesNext (bs "a;b=c") = none ∧ cookiesNext (bs "a=;") = none ∧ cookiesNext (bs "a=b; ") ≠ none ∧
    cookiesNext (bs "a;b=") ≠ none := by decide +kernel

end Memar.Http

namespace Memar.File
open Memar

theorem partsLoop_keeps (pre u : Bytes) (h : ch '/' ∈ pre) : ∃ x ∈ partsLoop pre u, ch '/' ∈ x := by
  induction u generalizing pre with
  | nil => exact ⟨pre, by simp [partsLoop], h⟩
  | cons c u ih =>
    by_cases hc : c = ch '/'
    · exact ⟨pre, by rw [hc, partsLoop_slash]; simp, h⟩
    · rw [partsLoop_other _ _ _ hc]
      exact ih (pre ++ [c]) (by simp [h])

theorem partsLoop_double (n : Nat) : ∀ (b t : Bytes), t.length ≤ n → DoubleSlash t → ∃ x ∈ partsLoop b t, ch '/' ∈ x := by
  induction n with
  | zero =>
    rintro b t h ⟨x, y, e⟩
    rw [e] at h; simp at h
  | succ n ih =>
    intro b t h hd
    match t, hd with
    | [], ⟨x, y, e⟩ => simp at e
    | c :: t, ⟨x, y, e⟩ =>
      by_cases hc : c = ch '/'
      · subst hc
        rw [partsLoop_slash]
        match t with
        | [] => cases x <;> simp at e
        | d :: t =>
          by_cases hd1 : d = ch '/'
          · obtain ⟨z, hz, hz2⟩ := partsLoop_keeps [d] t (by simp [hd1])
            exact ⟨z, List.mem_cons_of_mem _ hz, hz2⟩
          · match x with
            | [] => simp at e; exact absurd e.1 hd1
            | [x1] => simp at e; exact absurd e.2.1 hd1
            | x1 :: x2 :: x =>
              obtain ⟨z, hz, hz2⟩ := ih [d] t (by simp at h; omega) ⟨x, y, by simp at e; exact e.2.2⟩
              exact ⟨z, List.mem_cons_of_mem _ hz, hz2⟩
      · rw [partsLoop_other _ _ _ hc]
        match x with
        | [] => simp at e; exact absurd e.1 hc
        | x1 :: x => exact ih (b ++ [c]) t (by simp at h; omega) ⟨x, y, by simp at e; exact e.2⟩

/-- **C206** violated, exactly: the parts of a path are free of slashes if and only if no two slashes follow each other
anywhere in it. -/
theorem C206_parts_exact_violated (p : Bytes) :
    (∃ x ∈ filePathParts p, ch '/' ∈ x) ↔ ∃ a b, p = a ++ ch '/' :: ch '/' :: b := by
  constructor
  · intro ⟨x, hx, hs⟩
    exact Classical.byContradiction fun hn => C206_parts_partial p hn x hx hs
  · intro h
    exact partsLoop_double _ [] p (Nat.le_refl _) h

example : filePathParts (bs "a/b//c") = [bs "a", bs "b", bs "/c"] := by decide +kernel

end Memar.File

namespace Memar.Time

/-- **C168** violated, word for word: the text of every monotonic time is the placeholder `TODO:::` and that of every
other time is empty, both without an error. -/
theorem C168_text_is_placeholder_violated (t : Time) (m : I64) :
    monoToText m = (['T', 'O', 'D', 'O', ':', ':', ':'], false) ∧ t.toText = ([], false) := ⟨rfl, rfl⟩

end Memar.Time
