import Verif.Http.Expiry
import Verif.Http.CookieProps

/-!
# The time a cookie expires, as text (C292)
-/

namespace Memar.Http.Expiry
open Memar Decimal
open Memar.Http.Spec (LowersAscii)

/-- Specification: the leap years of the Gregorian calendar. -/
def Spec.Leap (y : Int) : Prop := 4 ∣ y ∧ (100 ∣ y → 400 ∣ y)

instance (y : Int) : Decidable (Spec.Leap y) := by unfold Spec.Leap; infer_instance

/-- Specification: the lengths of the months. -/
def Spec.lengths (y : Int) : List Nat := [31, if Spec.Leap y then 29 else 28, 31, 30, 31, 30, 31, 31, 30, 31, 30, 31]

/-- Specification: a date and time of day of the calendar. -/
structure Spec.Valid (c : Civil) : Prop where
  month : 1 ≤ c.month ∧ c.month ≤ 12
  day : 1 ≤ c.day ∧ c.day ≤ (Spec.lengths c.year).getD (c.month - 1) 0
  hour : c.hour < 24
  minute : c.minute < 60
  second : c.second < 60
  nano : c.nano < 1000000000

/-- Specification: what is assumed of the zone the code writes. -/
def Spec.KnowsGMT (zone : Bytes → Option (Bytes × Int)) : Prop := zone (bs "GMT") = some ([], 0)

/-- Specification: the time without the part of a second. -/
def Spec.toSecond (c : Civil) : Civil := { c with nano := 0 }

theorem isDig_digitChar (d : Nat) (h : d < 10) : isDig (digitChar d) = true := by
  unfold isDig; rw [digitChar_toNat d h]; simp; omega

theorem getnum_two (fixed : Bool) (n : Nat) (h : n < 100) (r : Bytes) : getnum fixed (two n ++ r) = some (n, r) := by
  simp only [two, List.cons_append, List.nil_append, getnum]
  rw [if_pos (isDig_digitChar _ (by omega)), if_pos (isDig_digitChar _ (by omega)), digitChar_toNat _ (by omega), digitChar_toNat _ (by omega)]
  congr 2
  omega

theorem lookup_day (d : Fin 7) (r : Bytes) : ∃ k, lookup dayNames (dayNames.getD d.val [] ++ r) = some (k, r) := by
  match d with
  | 0 => exact ⟨_, rfl⟩
  | 1 => exact ⟨_, rfl⟩
  | 2 => exact ⟨_, rfl⟩
  | 3 => exact ⟨_, rfl⟩
  | 4 => exact ⟨_, rfl⟩
  | 5 => exact ⟨_, rfl⟩
  | 6 => exact ⟨_, rfl⟩

theorem lookup_month (m : Fin 12) (r : Bytes) : lookup monthNames (monthNames.getD m.val [] ++ r) = some (m.val, r) := by
  match m with
  | 0 => rfl
  | 1 => rfl
  | 2 => rfl
  | 3 => rfl
  | 4 => rfl
  | 5 => rfl
  | 6 => rfl
  | 7 => rfl
  | 8 => rfl
  | 9 => rfl
  | 10 => rfl
  | 11 => rfl

theorem skipBlank_one (r : Bytes) (h : r.head? ≠ some (ch ' ')) : skipBlank (ch ' ' :: r) = some r := by
  unfold skipBlank
  simp only [if_true]
  cases r with
  | nil => rfl
  | cons b r =>
    simp only [List.head?_cons, ne_eq, Option.some.injEq] at h
    simp [List.dropWhile_cons, h]

theorem skipChar_one (c : Byte) (r : Bytes) (h : c = ch ' ' → r.head? ≠ some (ch ' ')) : skipChar c (c :: r) = some r := by
  unfold skipChar
  by_cases e : c = ch ' '
  · rw [if_pos e, e]; exact skipBlank_one r (h e)
  · rw [if_neg e]; simp

theorem pad4_length (n : Nat) (h : n < 10000) : (pad4 n).length = 4 := by
  unfold pad4
  have := decDigits_length_le n 4 (by omega) h
  simp; omega

theorem pad4_digits (n : Nat) : ∀ b ∈ pad4 n, isDig b = true := by
  intro b hb
  unfold pad4 at hb
  rcases List.mem_append.mp hb with h | h
  · rw [(List.mem_replicate.mp h).2]; decide
  · have := decDigits_allDigits n b h
    unfold IsDigit at this
    unfold isDig
    simp; omega

theorem decVal_zeros (k : Nat) (s : Bytes) : decVal (List.replicate k (ch '0') ++ s) = decVal s := by
  induction k with
  | zero => rfl
  | succ k ih =>
    rw [List.replicate_succ, List.cons_append]
    unfold decVal at ih ⊢
    rw [decFrom]
    exact ih

theorem getyear_pad4 (n : Nat) (h : n < 10000) (r : Bytes) : getyear (pad4 n ++ r) = some ((n : Int), r) := by
  have hl := pad4_length n h
  unfold getyear
  have ht : (pad4 n ++ r).take 4 = pad4 n := by rw [← hl]; simp
  have hd : (pad4 n ++ r).drop 4 = r := by rw [← hl]; simp
  rw [ht, hd, if_pos ⟨by simp; omega, by rw [List.all_eq_true]; exact pad4_digits n⟩]
  unfold pad4
  rw [decVal_zeros, decVal_decDigits]

theorem head_two (n : Nat) (h : n < 100) (r : Bytes) : (two n ++ r).head? ≠ some (ch ' ') := by
  simp only [two, List.cons_append, List.head?_cons, ne_eq, Option.some.injEq]
  intro e
  have := congrArg BitVec.toNat e
  rw [digitChar_toNat _ (by omega)] at this
  have h2 : (ch ' ').toNat = 32 := by decide
  omega

theorem head_month (m : Fin 12) (r : Bytes) : (monthNames.getD m.val [] ++ r).head? ≠ some (ch ' ') := by
  match m with
  | 0 => exact (by decide : (bs "Jan").head? ≠ some (ch ' '))
  | 1 => exact (by decide : (bs "Feb").head? ≠ some (ch ' '))
  | 2 => exact (by decide : (bs "Mar").head? ≠ some (ch ' '))
  | 3 => exact (by decide : (bs "Apr").head? ≠ some (ch ' '))
  | 4 => exact (by decide : (bs "May").head? ≠ some (ch ' '))
  | 5 => exact (by decide : (bs "Jun").head? ≠ some (ch ' '))
  | 6 => exact (by decide : (bs "Jul").head? ≠ some (ch ' '))
  | 7 => exact (by decide : (bs "Aug").head? ≠ some (ch ' '))
  | 8 => exact (by decide : (bs "Sep").head? ≠ some (ch ' '))
  | 9 => exact (by decide : (bs "Oct").head? ≠ some (ch ' '))
  | 10 => exact (by decide : (bs "Nov").head? ≠ some (ch ' '))
  | 11 => exact (by decide : (bs "Dec").head? ≠ some (ch ' '))

theorem head_pad4 (n : Nat) (r : Bytes) : (pad4 n ++ r).head? ≠ some (ch ' ') := by
  have h := pad4_digits n
  cases hp : pad4 n with
  | nil =>
    have : (pad4 n).length = 0 := by rw [hp]; rfl
    unfold pad4 at this
    simp only [List.length_append, Nat.add_eq_zero_iff, List.length_eq_zero_iff] at this
    exact absurd this.2 (decDigits_ne_nil n)
  | cons b s =>
    simp only [List.cons_append, List.head?_cons, ne_eq, Option.some.injEq]
    intro e
    have := h b (by rw [hp]; simp)
    rw [e] at this
    exact absurd this (by decide)

theorem fraction_blank (r : Bytes) : fraction (ch ' ' :: r) = (0, ch ' ' :: r) := by
  unfold fraction
  cases r with
  | nil => rfl
  | cons d r =>
    simp only
    rw [if_neg (fun h => absurd h.1 (by decide))]

theorem daysIn_le (m : Nat) (y : Int) : daysIn m y ≤ 31 := by
  unfold daysIn
  split
  · split <;> omega
  · split <;> omega

theorem daysIn_eq (m : Nat) (y : Int) (h : 1 ≤ m ∧ m ≤ 12) : daysIn m y = (Spec.lengths y).getD (m - 1) 0 := by
  have hl : isLeap y = decide (Spec.Leap y) := by
    unfold isLeap Spec.Leap
    by_cases h4 : 4 ∣ y
    · by_cases h100 : 100 ∣ y
      · by_cases h400 : 400 ∣ y
        · have e1 : y % 4 = 0 := by omega
          have e2 : y % 400 = 0 := by omega
          simp [h4, h100, h400, e1, e2]
        · have e1 : y % 100 = 0 := by omega
          have e2 : ¬ y % 400 = 0 := by omega
          simp [h4, h100, h400, e1, e2]
      · have e1 : y % 4 = 0 := by omega
        have e2 : ¬ y % 100 = 0 := by omega
        simp [h4, h100, e1, e2]
    · have e1 : ¬ y % 4 = 0 := by omega
      simp [h4, e1]
  have : m = 1 ∨ m = 2 ∨ m = 3 ∨ m = 4 ∨ m = 5 ∨ m = 6 ∨ m = 7 ∨ m = 8 ∨ m = 9 ∨ m = 10 ∨ m = 11 ∨ m = 12 := by omega
  rcases this with rfl | rfl | rfl | rfl | rfl | rfl | rfl | rfl | rfl | rfl | rfl | rfl <;> simp [daysIn, Spec.lengths, hl]

theorem valid_day (c : Civil) (hv : Spec.Valid c) : 1 ≤ c.day ∧ c.day ≤ daysIn c.month c.year := by
  rw [daysIn_eq _ _ hv.month]; exact hv.day

/-- What the date and time of day of a text up to its year is read as. -/
theorem parse_head (sep : Byte) (zone : Bytes → Option (Bytes × Int)) (weekday : Civil → Fin 7) (c : Civil) (hv : Spec.Valid c)
    (r : Bytes) (hr : sep = ch ' ' → r.head? ≠ some (ch ' ')) :
    parse sep zone (dayNames.getD (weekday c).val [] ++ (bs ", " ++ (two c.day ++ (sep :: (monthNames.getD (c.month - 1) [] ++ (sep :: r)))))) =
    (getyear r).bind fun (year : Int × Bytes) =>
    (skipBlank year.2).bind fun (v : Bytes) =>
    (getnum false v).bind fun (hour : Nat × Bytes) =>
    (skipChar (ch ':') hour.2).bind fun (v : Bytes) =>
    (getnum true v).bind fun (minute : Nat × Bytes) =>
    (skipChar (ch ':') minute.2).bind fun (v : Bytes) =>
    (getnum true v).bind fun (second : Nat × Bytes) =>
    (skipBlank (fraction second.2).2).bind fun (v : Bytes) =>
    (readZone zone v).bind fun (z : Bytes × Int) =>
    if z.1 = [] ∧ hour.1 < 24 ∧ minute.1 < 60 ∧ second.1 < 60 ∧ 1 ≤ c.day ∧ c.day ≤ daysIn c.month year.1 then
      some (⟨year.1, c.month, c.day, hour.1, minute.1, second.1, (fraction second.2).1⟩, z.2)
    else none := by
  obtain ⟨k, hk⟩ := lookup_day (weekday c)
    (bs ", " ++ (two c.day ++ (sep :: (monthNames.getD (c.month - 1) [] ++ (sep :: r)))))
  have hday : c.day < 100 := by have := daysIn_le c.month c.year; have := valid_day c hv; omega
  have hm : c.month - 1 < 12 := by have := hv.month; omega
  have hm1 : c.month - 1 + 1 = c.month := by have := hv.month; omega
  unfold parse
  rw [hk]
  simp only [Option.bind_some]
  rw [show (bs ", " : Bytes) = ch ',' :: ch ' ' :: [] by decide, List.cons_append, List.cons_append, List.nil_append,
    skipChar_one _ _ (fun h => absurd h (by decide))]
  simp only [Option.bind_some]
  rw [skipBlank_one _ (head_two _ hday _)]
  simp only [Option.bind_some]
  rw [getnum_two true _ hday]
  simp only [Option.bind_some]
  rw [skipChar_one sep _ (fun _ => head_month ⟨c.month - 1, hm⟩ _)]
  simp only [Option.bind_some]
  rw [lookup_month ⟨c.month - 1, hm⟩]
  simp only [Option.bind_some]
  rw [skipChar_one sep _ hr]
  simp only [Option.bind_some, hm1]

theorem parse_formatWith (sep : Byte) (zone : Bytes → Option (Bytes × Int)) (hz : Spec.KnowsGMT zone) (weekday : Civil → Fin 7) (c : Civil)
    (hv : Spec.Valid c) (hy : 0 ≤ c.year ∧ c.year ≤ 9999) :
    parse sep zone (formatWith sep weekday c) = some (Spec.toSecond c, 0) := by
  have hy4 : c.year.toNat < 10000 := by omega
  have hyt : yearText c.year = pad4 c.year.toNat := by unfold yearText; rw [if_neg (by omega)]
  have h1 := hv.hour
  have h2 := hv.minute
  have h3 := hv.second
  unfold formatWith
  rw [parse_head sep zone weekday c hv _ (fun _ => by rw [hyt]; exact head_pad4 _ _), hyt, getyear_pad4 _ hy4]
  simp only [Option.bind_some]
  rw [skipBlank_one _ (head_two _ (by omega) _)]
  simp only [Option.bind_some]
  rw [getnum_two false _ (by omega)]
  simp only [Option.bind_some]
  rw [skipChar_one _ _ (fun h => absurd h (by decide))]
  simp only [Option.bind_some]
  rw [getnum_two true _ (by omega)]
  simp only [Option.bind_some]
  rw [skipChar_one _ _ (fun h => absurd h (by decide))]
  simp only [Option.bind_some]
  rw [getnum_two true _ (by omega)]
  simp only [Option.bind_some]
  rw [show (bs " GMT" : Bytes) = ch ' ' :: bs "GMT" by decide, fraction_blank]
  simp only
  rw [skipBlank_one _ (by decide)]
  simp only [Option.bind_some]
  unfold readZone
  rw [if_neg (by decide), hz]
  simp only [Option.bind_some]
  have hyy : ((c.year.toNat : Nat) : Int) = c.year := by omega
  rw [hyy, if_pos ⟨trivial, h1, h2, h3, (valid_day c hv).1, (valid_day c hv).2⟩]
  rfl

/-- **C292**: a time of expiry in the years 0 to 9999 is read back from the text that is set, to the second and in UTC, whatever
weekday the text names.
Missing: other years (refuted: `C292_far_violated`). -/
theorem C292_kept_partial (zone : Bytes → Option (Bytes × Int)) (hz : Spec.KnowsGMT zone) (weekday : Civil → Fin 7) (sc : SetCookie)
    (c : Civil) (hv : Spec.Valid c) (hy : 0 ≤ c.year ∧ c.year ≤ 9999) :
    getExpire zone (setExpire weekday sc c) = (Spec.toSecond c, 0) := by
  unfold getExpire setExpire SetCookie.getExpire SetCookie.setExpire format
  simp only [id]
  rw [parse_formatWith _ zone hz weekday c hv hy]

example := C292_kept_partial (fun v => if v = bs "GMT" then some ([], 0) else none) (by unfold Spec.KnowsGMT; decide +kernel) (fun _ => 2) { name := bs "a" }
  ⟨2026, 11, 17, 20, 5, 59, 123⟩ ⟨by decide, by decide, by decide, by decide, by decide, by decide⟩ (by decide)

/-! ## The other layout -/

theorem parse_other (sep sep' : Byte) (hne : sep' ≠ sep) (zone : Bytes → Option (Bytes × Int)) (weekday : Civil → Fin 7) (c : Civil)
    (hday : c.day < 100) : parse sep zone (formatWith sep' weekday c) = none := by
  unfold formatWith
  obtain ⟨k, hk⟩ := lookup_day (weekday c)
    (bs ", " ++ (two c.day ++ (sep' :: (monthNames.getD (c.month - 1) [] ++ (sep' :: (yearText c.year ++
    (ch ' ' :: (two c.hour ++ (ch ':' :: (two c.minute ++ (ch ':' :: (two c.second ++ bs " GMT"))))))))))))
  unfold parse
  rw [hk]
  simp only [Option.bind_some]
  rw [show (bs ", " : Bytes) = ch ',' :: ch ' ' :: [] by decide, List.cons_append, List.cons_append, List.nil_append,
    skipChar_one _ _ (fun h => absurd h (by decide))]
  simp only [Option.bind_some]
  rw [skipBlank_one _ (head_two _ hday _)]
  simp only [Option.bind_some]
  rw [getnum_two true _ hday]
  simp only [Option.bind_some]
  have : ∀ r, skipChar sep (sep' :: r) = none := by
    intro r
    unfold skipChar
    split
    · rename_i e
      unfold skipBlank
      simp only
      rw [if_neg (by rw [← e]; exact hne)]
    · simp only
      rw [if_neg hne]
  rw [this]
  rfl

theorem day_lt (c : Civil) (hv : Spec.Valid c) : c.day < 100 := by have := daysIn_le c.month c.year; have := valid_day c hv; omega

/-- **C292**: the older form of the date, with dashes, is read too.
Missing: other years, as for the form that is written (refuted: `C292_far_violated`). -/
theorem C292_dashed_partial (zone : Bytes → Option (Bytes × Int)) (hz : Spec.KnowsGMT zone) (weekday : Civil → Fin 7) (sc : SetCookie)
    (c : Civil) (hv : Spec.Valid c) (hy : 0 ≤ c.year ∧ c.year ≤ 9999) :
    getExpire zone { sc with expires := formatWith (ch '-') weekday c } = (Spec.toSecond c, 0) := by
  unfold getExpire SetCookie.getExpire
  simp only
  rw [parse_other _ _ (by decide) zone weekday c (day_lt c hv), parse_formatWith _ zone hz weekday c hv hy]

example : formatWith (ch '-') (fun _ => 0) ⟨1994, 11, 6, 8, 49, 37, 0⟩ = bs "Sun, 06-Nov-1994 08:49:37 GMT" := by decide +kernel
example : format (fun _ => 0) ⟨1994, 11, 6, 8, 49, 37, 0⟩ = bs "Sun, 06 Nov 1994 08:49:37 GMT" := by decide +kernel

/-! ## Years with more than four digits -/

theorem pad4_long (n : Nat) (h : 10000 ≤ n) : ∃ a b c d e r, pad4 n = a :: b :: c :: d :: e :: r ∧ isDig e = true := by
  have hl : 5 ≤ (decDigits n).length := by
    rcases Nat.lt_or_ge (decDigits n).length 5 with h' | h'
    · have h1 := decVal_lt (decDigits n) (decDigits_allDigits n)
      rw [decVal_decDigits] at h1
      have : 10 ^ (decDigits n).length ≤ 10 ^ 4 := Nat.pow_le_pow_right (by omega) (by omega)
      omega
    · exact h'
  have hd := pad4_digits n
  have hp : 5 ≤ (pad4 n).length := by unfold pad4; simp; omega
  match hq : pad4 n with
  | a :: b :: c :: d :: e :: r => exact ⟨a, b, c, d, e, r, rfl, hd e (by rw [hq]; simp)⟩
  | [] => rw [hq] at hp; exact absurd hp (by decide)
  | [_] => rw [hq] at hp; exact absurd hp (by simp)
  | [_, _] => rw [hq] at hp; exact absurd hp (by simp)
  | [_, _, _] => rw [hq] at hp; exact absurd hp (by simp)
  | [_, _, _, _] => rw [hq] at hp; exact absurd hp (by simp)

/-- **C292** violated: a time of expiry after the year 9999 or before the year 0 is set without an error, and read back as the zero
time, so that the cookie looks as if it had expired long ago. -/
theorem C292_far_violated (zone : Bytes → Option (Bytes × Int)) (weekday : Civil → Fin 7) (sc : SetCookie) (c : Civil) (hv : Spec.Valid c)
    (hy : c.year < 0 ∨ 9999 < c.year) : getExpire zone (setExpire weekday sc c) = zeroTime := by
  unfold getExpire setExpire SetCookie.getExpire SetCookie.setExpire format
  simp only [id]
  have h1 : parse (ch ' ') zone (formatWith (ch ' ') weekday c) = none := by
    unfold formatWith
    rcases hy with hy | hy
    · have hyt : yearText c.year = ch '-' :: pad4 (-c.year).toNat := by unfold yearText; rw [if_pos hy]
      rw [parse_head _ zone weekday c hv _ (fun _ => by rw [hyt]; simp only [List.cons_append, List.head?_cons]; decide), hyt]
      have : ∀ r, getyear (ch '-' :: r) = none := by
        intro r
        unfold getyear
        rw [if_neg]
        intro h
        have h2 := h.2
        simp only [List.take_succ_cons, List.all_cons, Bool.and_eq_true] at h2
        exact absurd h2.1 (by decide)
      rw [List.cons_append, this]
      rfl
    · have hyt : yearText c.year = pad4 c.year.toNat := by unfold yearText; rw [if_neg (by omega)]
      rw [parse_head _ zone weekday c hv _ (fun _ => by rw [hyt]; exact head_pad4 _ _), hyt]
      obtain ⟨y1, y2, y3, y4, y5, r, hp, h5⟩ := pad4_long c.year.toNat (by omega)
      have hd := pad4_digits c.year.toNat
      rw [hp] at hd ⊢
      simp only [List.cons_append]
      have : ∀ t, getyear (y1 :: y2 :: y3 :: y4 :: y5 :: t) = some ((decVal [y1, y2, y3, y4] : Int), y5 :: t) := by
        intro t
        unfold getyear
        rw [if_pos]
        · rfl
        · refine ⟨by simp, ?_⟩
          simp only [List.take_succ_cons, List.take_zero, List.all_cons, List.all_nil, hd y1 (by simp), hd y2 (by simp), hd y3 (by simp), hd y4 (by simp)]
          rfl
      rw [this]
      simp only [Option.bind_some]
      have h6 : ∀ t, skipBlank (y5 :: t) = none := by
        intro t
        unfold skipBlank
        simp only
        rw [if_neg]
        intro e
        rw [e] at h5
        exact absurd h5 (by decide)
      rw [h6]
      rfl
  rw [h1, parse_other _ _ (by decide) zone weekday c (day_lt c hv)]

example := C292_far_violated (fun _ => none) (fun _ => 2) { name := bs "a" } ⟨10000, 1, 1, 0, 0, 0, 0⟩
  ⟨by decide, by decide, by decide, by decide, by decide, by decide⟩ (Or.inr (by decide))

/-! ## Every text -/

theorem lookup_lt (ns : List Bytes) (v : Bytes) (p : Nat × Bytes) (h : lookup ns v = some p) : p.1 < ns.length := by
  induction ns generalizing p with
  | nil => cases h
  | cons n ns ih =>
    unfold lookup at h
    split at h
    · cases h; simp
    · cases hl : lookup ns v with
      | none => rw [hl] at h; cases h
      | some q =>
        rw [hl] at h
        cases h
        have := ih q hl
        simp only [List.length_cons]
        omega

theorem fraction_lt (v : Bytes) : (fraction v).1 < 1000000000 := by
  unfold fraction
  split
  · rename_i p d r
    split
    · have hd : AllDigits ((((d :: r).takeWhile isDig ++ List.replicate 9 (ch '0')).take 9)) := by
        intro b hb
        rcases List.mem_append.mp (List.mem_of_mem_take hb) with h | h
        · have : isDig b = true := List.all_eq_true.mp List.all_takeWhile b h
          unfold isDig at this
          unfold IsDigit
          simp only [Bool.and_eq_true, decide_eq_true_eq] at this
          exact this
        · rw [(List.mem_replicate.mp h).2]; decide
      have h := decVal_lt _ hd
      have hl : ((((d :: r).takeWhile isDig ++ List.replicate 9 (ch '0')).take 9)).length = 9 := by
        rw [List.length_take, List.length_append, List.length_replicate]; omega
      rw [hl] at h
      exact h
    · simp
  · simp

theorem parse_valid (sep : Byte) (zone : Bytes → Option (Bytes × Int)) (v : Bytes) (r : Civil × Int) (h : parse sep zone v = some r) :
    Spec.Valid r.1 ∧ 0 ≤ r.1.year := by
  unfold parse at h
  simp only [Option.bind_eq_some_iff] at h
  obtain ⟨_, _, _, _, _, _, day, _, _, _, month, hm, _, _, year, hy, _, _, hour, _, _, _, minute, _, _, _, second, _, _, _, z, _, h⟩ := h
  split at h
  · rename_i hc
    cases h
    have := lookup_lt _ _ _ hm
    have hl : monthNames.length = 12 := rfl
    refine ⟨⟨by simp only; omega, ⟨hc.2.2.2.2.1, by rw [← daysIn_eq _ _ (by simp only; omega)]; exact hc.2.2.2.2.2⟩, hc.2.1, hc.2.2.1, hc.2.2.2.1, fraction_lt _⟩, ?_⟩
    unfold getyear at hy
    split at hy
    · cases hy; simp only; omega
    · cases hy
  · cases h

/-- **C292**: whatever text a peer sends as the time of expiry, what is read is a date and time of day of the calendar. -/
theorem C292_calendar (zone : Bytes → Option (Bytes × Int)) (sc : SetCookie) :
    Spec.Valid (getExpire zone sc).1 ∧ 0 ≤ (getExpire zone sc).1.year := by
  unfold getExpire SetCookie.getExpire
  split
  · rename_i t h
    exact parse_valid _ _ _ _ h
  · split
    · rename_i t h
      exact parse_valid _ _ _ _ h
    · exact ⟨⟨by decide, by decide, by decide, by decide, by decide, by decide⟩, by decide⟩

/-- The twenty-ninth of February of a common year is no date, and is read as the zero time; that of a leap year is read. -/
example : getExpire (fun v => if v = bs "GMT" then some ([], 0) else none) { expires := bs "Wed, 29 Feb 2023 08:49:37 GMT" } = zeroTime ∧
    getExpire (fun v => if v = bs "GMT" then some ([], 0) else none) { expires := bs "Thu, 29 Feb 2024 08:49:37 GMT" } =
      (⟨2024, 2, 29, 8, 49, 37, 0⟩, 0) := by decide +kernel

/-! ## Over the wire -/

theorem format_plain (weekday : Civil → Fin 7) (c : Civil) (hv : Spec.Valid c) : ch ';' ∉ format weekday c := by
  have hd : ∀ d : Fin 7, ch ';' ∉ dayNames.getD d.val [] := by decide
  have hm : ∀ m : Fin 12, ch ';' ∉ monthNames.getD m.val [] := by decide
  have h2 : ∀ n, n < 100 → ch ';' ∉ two n := by
    intro n hn h
    have h59 : (ch ';').toNat = 59 := by decide
    simp only [two, List.mem_cons, List.not_mem_nil, or_false] at h
    rcases h with h | h
    · have := congrArg BitVec.toNat h
      rw [digitChar_toNat _ (by omega)] at this
      omega
    · have := congrArg BitVec.toNat h
      rw [digitChar_toNat _ (by omega)] at this
      omega
  have h4 : ∀ n, ch ';' ∉ pad4 n := fun n h => absurd (pad4_digits n _ h) (by decide)
  have hy : ch ';' ∉ yearText c.year := by
    unfold yearText
    split
    · intro h
      rcases List.mem_cons.mp h with h | h
      · exact absurd h (by decide)
      · exact h4 _ h
    · exact h4 _
  have hmm : ch ';' ∉ monthNames.getD (c.month - 1) [] := hm ⟨c.month - 1, by have := hv.month; omega⟩
  have b1 : ch ';' ∉ bs ", " := by decide
  have b2 : ch ';' ∉ bs " GMT" := by decide
  have b3 : ch ';' ≠ ch ' ' := by decide
  have b4 : ch ';' ≠ ch ':' := by decide
  have := day_lt c hv
  have h5 := hv.hour
  have h6 := hv.minute
  have h7 := hv.second
  unfold format formatWith
  simp only [List.mem_append, List.mem_cons, hd (weekday c), b1, b2, b3, b4, h2 c.day this, h2 c.hour (by omega), h2 c.minute (by omega),
    h2 c.second (by omega), hmm, hy, or_self, not_false_eq_true]

/-- **C292**: a peer that reads the line written for a cookie gets the time of expiry that was set, when the cookie has no SameSite
mode beside Secure or HttpOnly.
Missing: other years (refuted: `C292_far_violated`), and cookies with such a mode (refuted:
`C54_samesite_with_boolean_panics_violated`). -/
theorem C292_over_the_wire_partial (toLower : Bytes → Bytes) (hl : LowersAscii toLower) (zone : Bytes → Option (Bytes × Int))
    (hz : Spec.KnowsGMT zone) (weekday : Civil → Fin 7) (sc : SetCookie) (h : Memar.Http.Spec.SetCookie.Plain sc)
    (hb : sc.sameSite = [] ∨ (sc.httpOnly = false ∧ sc.secure = false)) (c : Civil) (hv : Spec.Valid c) (hy : 0 ≤ c.year ∧ c.year ≤ 9999) :
    ∃ r, SetCookie.unmarshal toLower {} (setExpire weekday sc c).marshal = some r ∧ getExpire zone r = (Spec.toSecond c, 0) ∧
      r.name = sc.name ∧ r.value = sc.value :=
  ⟨_, C54_set_cookie_round_trip_partial toLower hl _ ⟨h.name, h.value, h.path, h.domain, format_plain weekday c hv, h.maxAge, h.sameSite⟩ hb,
    C292_kept_partial zone hz weekday sc c hv hy, rfl, rfl⟩

example := C292_over_the_wire_partial (fun s => s.map lowerByte) (fun _ _ => rfl) (fun v => if v = bs "GMT" then some ([], 0) else none)
  (by unfold Spec.KnowsGMT; decide +kernel) (fun _ => 2) { name := bs "a", value := bs "b" }
  ⟨by decide, by decide, by decide, by decide, by decide, by decide, by decide⟩ (Or.inl rfl) ⟨2026, 11, 17, 20, 5, 59, 123⟩
  ⟨by decide, by decide, by decide, by decide, by decide, by decide⟩ (by decide)

end Memar.Http.Expiry
