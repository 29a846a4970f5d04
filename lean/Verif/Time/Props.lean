import Verif.Time.Lemmas

/-!
# Properties of durations and clocks (C27, C28, C29, C73, C74, C75)
-/

namespace Memar.Time

/-! ## Durations -/

/-- C27: splitting any duration and recombining gives the duration back. -/
theorem C27_split_recombine (d : I64) :
    fromSecAndNano (toSecAndNano d).1 (toSecAndNano d).2 = d := by
  have f := tdiv_facts d.toInt 1000000000 (by decide)
  have r := range64 d
  obtain ⟨h1, h2⟩ := toInt_toSecAndNano d
  apply BitVec.toInt_inj.1
  rw [toInt_fromSecAndNano (by rw [h1, h2]; omega) (by rw [h1, h2]; omega), h1, h2]
  omega

/-- C27: the remainder lies within one second and has the sign of the duration, and the parts are
the mathematical quotient and remainder. -/
theorem C27_split_exact (d : I64) :
    let (sec, nsec) := toSecAndNano d
    sec.toInt * 1000000000 + nsec.toInt = d.toInt ∧
    -1000000000 < nsec.toInt ∧ nsec.toInt < 1000000000 ∧
    (0 ≤ d.toInt → 0 ≤ sec.toInt ∧ 0 ≤ nsec.toInt) ∧
    (d.toInt ≤ 0 → sec.toInt ≤ 0 ∧ nsec.toInt ≤ 0) := by
  have f := tdiv_facts d.toInt 1000000000 (by decide)
  obtain ⟨h1, h2⟩ := toInt_toSecAndNano d
  simp only
  rw [h1, h2]
  omega

/-- C27: a second and a remainder of the same sign that fit into a duration are recovered. -/
theorem C27_recombine_split (sec : I64) (nsec : I32)
    (hn1 : -1000000000 < nsec.toInt) (hn2 : nsec.toInt < 1000000000)
    (hsign : (0 ≤ sec.toInt ∧ 0 ≤ nsec.toInt) ∨ (sec.toInt ≤ 0 ∧ nsec.toInt ≤ 0))
    (h1 : -9223372036854775808 ≤ sec.toInt * 1000000000 + nsec.toInt)
    (h2 : sec.toInt * 1000000000 + nsec.toInt < 9223372036854775808) :
    toSecAndNano (fromSecAndNano sec nsec) = (sec, nsec) := by
  have e := toInt_fromSecAndNano h1 h2
  obtain ⟨k1, k2⟩ := toInt_toSecAndNano (fromSecAndNano sec nsec)
  have f := tdiv_facts (fromSecAndNano sec nsec).toInt 1000000000 (by decide)
  rw [e] at k1 k2 f
  refine Prod.ext (BitVec.toInt_inj.1 ?_) (BitVec.toInt_inj.1 ?_)
  · rw [k1]; simp only; omega
  · rw [k2]; simp only; omega

example : toSecAndNano (BitVec.ofInt 64 (-1500000000)) =
    (BitVec.ofInt 64 (-1), BitVec.ofInt 32 (-500000000)) := by decide +kernel

/-- C253 is violated beyond 292 years: seconds that do not fit wrap around without an error. -/
theorem C253_overflow_violated :
    ∃ sec : I64, 0 < sec.toInt ∧ (fromSecAndNano sec 0#32).toInt < 0 :=
  ⟨9223372037#64, by decide +kernel, by decide +kernel⟩

/-! ## Wall clock -/

/-- The instant a time stands for, in nanoseconds. -/
def Time.instant (t : Time) : Int := t.sec.toInt * 1000000000 + t.nsec.toInt

/-- The nanosecond part lies within one second. -/
def Time.Normal (t : Time) : Prop := 0 ≤ t.nsec.toInt ∧ t.nsec.toInt < 1000000000

theorem pass_iff (t u : Time) : t.pass u = true ↔
    u.sec.toInt < t.sec.toInt ∨ (t.sec.toInt = u.sec.toInt ∧ u.nsec.toInt < t.nsec.toInt) := by
  simp only [Time.pass, Bool.or_eq_true, Bool.and_eq_true, BitVec.slt_iff_toInt_lt, beq_iff_eq,
    BitVec.toInt_inj]

/-- C28: 'passed' is irreflexive, transitive and total on all times. -/
theorem C28_strict_total_order (t u v : Time) :
    t.pass t = false ∧ (t.pass u = true → u.pass v = true → t.pass v = true) ∧
    (t = u ∨ t.pass u = true ∨ u.pass t = true) := by
  refine ⟨?_, ?_, ?_⟩
  · apply Bool.eq_false_iff.2
    rw [Ne, pass_iff]; omega
  · rw [pass_iff, pass_iff, pass_iff]; omega
  · rw [pass_iff, pass_iff]
    by_cases h1 : t.sec.toInt = u.sec.toInt
    · by_cases h2 : t.nsec.toInt = u.nsec.toInt
      · left
        have a := BitVec.toInt_inj.1 h1
        have b := BitVec.toInt_inj.1 h2
        cases t; cases u; simp_all
      · omega
    · omega

/-- C28: on normalised times it compares the instants. -/
theorem C28_agrees_with_instants (t u : Time) (ht : t.Normal) (hu : u.Normal) :
    t.pass u = true ↔ u.instant < t.instant := by
  rw [pass_iff]
  unfold Time.Normal at ht hu
  unfold Time.instant
  omega

example := C28_agrees_with_instants ⟨1700000000#64, 5#32⟩ ⟨1700000000#64, 4#32⟩ (by simp only [Time.Normal]; decide +kernel) (by simp only [Time.Normal]; decide +kernel)

/-- C186: adding a duration moves the instant by it, when neither part overflows.
Missing: that the result is normalised (refuted: `C186_add_not_normal_violated`,
`C186_add_goes_back_violated`). -/
theorem C186_add_moves_instant_partial (t : Time) (d : I64)
    (h1 : -9223372036854775808 ≤ t.sec.toInt + d.toInt.tdiv 1000000000)
    (h2 : t.sec.toInt + d.toInt.tdiv 1000000000 < 9223372036854775808)
    (h3 : -2147483648 ≤ t.nsec.toInt + d.toInt.tmod 1000000000)
    (h4 : t.nsec.toInt + d.toInt.tmod 1000000000 < 2147483648) :
    (t.add d).instant = t.instant + d.toInt := by
  have f := tdiv_facts d.toInt 1000000000 (by decide)
  obtain ⟨k1, k2⟩ := toInt_toSecAndNano d
  simp only [Time.instant, Time.add]
  rw [BitVec.toInt_add, BitVec.toInt_add, k1, k2, bm64 h1 h2, bm32 h3 h4]
  omega

example := C186_add_moves_instant_partial ⟨1700000000#64, 5#32⟩ (BitVec.ofInt 64 (-1500000000)) (by decide +kernel) (by decide +kernel) (by decide +kernel) (by decide +kernel)

/-- C186 is violated: the result of `Add` is not normalised.  For every second `s`, adding a
nanosecond to the last nanosecond of `s` gives a time that stands for the same instant as the
beginning of the next second, yet the latter is reported as later. -/
theorem C186_add_not_normal_violated (s : I64) (hs : s.toInt < 9223372036854775807) :
    ((⟨s, 999999999#32⟩ : Time).add 1#64).instant = (⟨s + 1#64, 0#32⟩ : Time).instant ∧
    (⟨s + 1#64, 0#32⟩ : Time).pass ((⟨s, 999999999#32⟩ : Time).add 1#64) = true := by
  have r := range64 s
  have e : (s + 1#64).toInt = s.toInt + 1 := by
    rw [BitVec.toInt_add, show (1#64 : I64).toInt = 1 by decide]
    exact bm64 (by omega) (by omega)
  have ea : (⟨s, 999999999#32⟩ : Time).add 1#64 = ⟨s, 1000000000#32⟩ := by
    simp only [Time.add]
    have h1 : toSecAndNano 1#64 = (0#64, 1#32) := by decide +kernel
    rw [h1]; simp
  rw [ea]
  constructor
  · simp only [Time.instant, e]
    have h1 : (1000000000#32 : I32).toInt = 1000000000 := by decide
    have h2 : (0#32 : I32).toInt = 0 := by decide
    rw [h1, h2]; omega
  · rw [pass_iff]; simp only [e]; left; omega

example := C186_add_not_normal_violated 1700000000#64 (by decide +kernel)

/-- C186 is violated: two additions of the same positive duration can move the time back.  From any
normalised time whose nanosecond part is the largest, adding 0.999999999 s twice overflows the
nanosecond part. -/
theorem C186_add_goes_back_violated (s : I64) :
    (((⟨s, 999999999#32⟩ : Time).add 999999999#64).add 999999999#64).instant
      < (⟨s, 999999999#32⟩ : Time).instant := by
  have h1 : toSecAndNano 999999999#64 = (0#64, 999999999#32) := by decide +kernel
  simp only [Time.add, h1, Time.instant]
  have h2 : (999999999#32 + 999999999#32 + 999999999#32 : I32).toInt = -1294967299 := by decide
  have h3 : (999999999#32 : I32).toInt = 999999999 := by decide
  rw [h2, h3]
  simp

example : (⟨5#64, 999999999#32⟩ : Time).Normal ∧ (⟨6#64, 1#32⟩ : Time).Normal ∧
    (⟨6#64, 1#32⟩ : Time).pass ⟨5#64, 999999999#32⟩ = true := by
  refine ⟨by unfold Time.Normal; decide, by unfold Time.Normal; decide, by decide⟩

/-- C28: the time until an instant is the difference of the instants, when it fits. -/
theorem C28_until_difference (t u : Time)
    (ht : t.Normal) (hu : u.Normal)
    (h1 : -9223372036854775808 ≤ t.instant - u.instant)
    (h2 : t.instant - u.instant < 9223372036854775808) :
    (t.untilTo u).toInt = t.instant - u.instant := by
  unfold Time.Normal at ht hu
  unfold Time.instant at h1 h2 ⊢
  have e1 : (t.sec - u.sec).toInt = t.sec.toInt - u.sec.toInt := by
    rw [BitVec.toInt_sub, bm64 (by omega) (by omega)]
  have e2 : (t.nsec - u.nsec).toInt = t.nsec.toInt - u.nsec.toInt := by
    rw [BitVec.toInt_sub, bm32 (by omega) (by omega)]
  simp only [Time.untilTo, Time.until, Time.nanoElapsed]
  rw [toInt_fromSecAndNano (by rw [e1, e2]; omega) (by rw [e1, e2]; omega), e1, e2]
  omega

example := C28_until_difference ⟨1700000000#64, 5#32⟩ ⟨1699999999#64, 999999999#32⟩ (by simp only [Time.Normal]; decide +kernel) (by simp only [Time.Normal]; decide +kernel) (by decide +kernel) (by decide +kernel)

/-! ## Units -/

theorem toInt_sdiv32 (x : I32) (n : Nat) (hn : 1 < n) (hn' : n < 2147483648)
    (h0 : 0 ≤ x.toInt) : (x.sdiv (BitVec.ofNat 32 n)).toInt = x.toInt / n := by
  have hn2 : (BitVec.ofNat 32 n).toInt = n := by
    rw [BitVec.toInt_eq_toNat_bmod, BitVec.toNat_ofNat, Nat.mod_eq_of_lt (by omega)]; exact bm32 (by omega) (by omega)
  have r := range32 x
  rw [BitVec.toInt_sdiv, hn2, Int.tdiv_eq_ediv_of_nonneg h0]
  have h1 : 0 ≤ x.toInt / n := Int.ediv_nonneg h0 (by omega)
  have h2 : x.toInt / n ≤ x.toInt := Int.ediv_le_self _ h0
  exact bm32 (by omega) (by omega)

/-- C75: the elapsed time in hours and days is the instant divided by the unit, rounded down, for every normalised time at or
after the epoch, however late. -/
theorem C75_hours_days (t : Time) (hn : t.Normal) (h0 : 0 ≤ t.sec.toInt) :
    t.hourElapsed.toInt = t.instant / 3600000000000 ∧ t.dayElapsed.toInt = t.instant / 86400000000000 := by
  unfold Time.Normal at hn
  have r := range64 t.sec
  unfold Time.instant
  constructor
  · simp only [Time.hourElapsed]
    rw [BitVec.toInt_sdiv, show (3600#64 : I64).toInt = 3600 by decide,
      Int.tdiv_eq_ediv_of_nonneg h0, bm64 (by omega) (by omega)]
    omega
  · simp only [Time.dayElapsed]
    rw [BitVec.toInt_sdiv, show (86400#64 : I64).toInt = 86400 by decide,
      Int.tdiv_eq_ediv_of_nonneg h0, bm64 (by omega) (by omega)]
    omega

example := C75_hours_days ⟨9223372036854775807#64, 999999999#32⟩ (by simp only [Time.Normal]; decide +kernel) (by decide +kernel)

/-- C75: the elapsed time in nano-, micro- and milliseconds, hours and days is the instant divided by
the unit, rounded down, for every normalised time at or after the epoch that fits. -/
theorem C75_elapsed_units (t : Time) (hn : t.Normal) (h0 : 0 ≤ t.sec.toInt)
    (hfit : t.instant < 9223372036854775808) :
    t.nanoElapsed.toInt = t.instant ∧
    t.microElapsed.toInt = t.instant / 1000 ∧
    t.milliElapsed.toInt = t.instant / 1000000 ∧
    t.hourElapsed.toInt = t.instant / 3600000000000 ∧
    t.dayElapsed.toInt = t.instant / 86400000000000 := by
  unfold Time.Normal at hn
  unfold Time.instant at *
  refine ⟨toInt_fromSecAndNano (by omega) hfit, ?_, ?_, ?_, ?_⟩
  · simp only [Time.microElapsed, microFromSecAndNano]
    rw [BitVec.toInt_add, BitVec.toInt_mul, BitVec.toInt_signExtend_of_le (by decide),
      toInt_sdiv32 t.nsec 1000 (by decide) (by decide) hn.1, Int.bmod_add_bmod,
      show (1000000#64 : I64).toInt = 1000000 by decide]
    rw [bm64 (by omega) (by omega)]; omega
  · simp only [Time.milliElapsed, milliFromSecAndNano]
    rw [BitVec.toInt_add, BitVec.toInt_mul, BitVec.toInt_signExtend_of_le (by decide),
      toInt_sdiv32 t.nsec 1000000 (by decide) (by decide) hn.1, Int.bmod_add_bmod,
      show (1000#64 : I64).toInt = 1000 by decide]
    rw [bm64 (by omega) (by omega)]; omega
  · simp only [Time.hourElapsed]
    rw [BitVec.toInt_sdiv, show (3600#64 : I64).toInt = 3600 by decide,
      Int.tdiv_eq_ediv_of_nonneg h0, bm64 (by omega) (by omega)]
    omega
  · simp only [Time.dayElapsed]
    rw [BitVec.toInt_sdiv, show (86400#64 : I64).toInt = 86400 by decide,
      Int.tdiv_eq_ediv_of_nonneg h0, bm64 (by omega) (by omega)]
    omega

example : (⟨1700000000#64, 123456789#32⟩ : Time).Normal ∧
    (⟨1700000000#64, 123456789#32⟩ : Time).microElapsed = 1700000000123456#64 := by
  refine ⟨by unfold Time.Normal; decide, by decide +kernel⟩

/-! ## Weekday and hour -/

theorem sec_nat (s : I64) (h : 0 ≤ s.toInt) : s.toInt = s.toNat ∧ s.toNat < 2 ^ 63 := by
  have hm : s.msb = false := by
    rw [BitVec.msb_eq_toInt]; simp; omega
  have h1 := BitVec.toInt_eq_toNat_of_msb hm
  have := range64 s
  omega

theorem toNat_srem (s : I64) (n : Nat) (h : 0 ≤ s.toInt) (hn : n < 2 ^ 63) :
    (s.srem (BitVec.ofNat 64 n)).toNat = s.toNat % n := by
  obtain ⟨h1, h2⟩ := sec_nat s h
  have hm : s.msb = false := by rw [BitVec.msb_eq_toInt]; simp; omega
  have hk : (BitVec.ofNat 64 n).msb = false := by
    rw [BitVec.msb_eq_decide]; simp; omega
  rw [BitVec.srem_eq, hm, hk]
  simp [BitVec.toNat_umod, Nat.mod_eq_of_lt (show n < 2 ^ 64 by omega)]

theorem toNat_sdiv (s : I64) (n : Nat) (h : s.toNat < 2 ^ 63) (hn : n < 2 ^ 63) :
    (s.sdiv (BitVec.ofNat 64 n)).toNat = s.toNat / n := by
  have hm : s.msb = false := by rw [BitVec.msb_eq_decide]; simp; omega
  have hk : (BitVec.ofNat 64 n).msb = false := by
    rw [BitVec.msb_eq_decide]; simp; omega
  rw [BitVec.sdiv_eq, hm, hk]
  simp [BitVec.toNat_udiv]
  rw [Nat.mod_eq_of_lt (show n < 18446744073709551616 by omega)]

theorem shl1_small (w : Nat) (n : I64) (h : n.toNat < 64) :
    shl1 w n = some (1#w <<< n.toNat) := by
  have hm : n.msb = false := by rw [BitVec.msb_eq_decide]; simp; omega
  have : n.slt 0#64 = false := by
    rw [BitVec.slt_zero_eq_msb, hm]
  simp [shl1, this]

/-- C29: at or after the epoch (a Thursday) the reported weekday is the calendar's: the day number
since the epoch, counted modulo seven from Thursday. -/
theorem C29_weekday (t : Time) (h : 0 ≤ t.sec.toInt) :
    t.weekdays = some (weekdaysConst ((t.sec.toNat / 86400 + 3) % 7)) := by
  obtain ⟨h1, h2⟩ := sec_nat t.sec h
  have e1 : (t.sec.srem 604800#64).toNat = t.sec.toNat % 604800 := toNat_srem t.sec 604800 h (by decide)
  have e2 : ((t.sec.srem 604800#64).sdiv 86400#64).toNat = t.sec.toNat % 604800 / 86400 := by
    rw [show (86400#64 : I64) = BitVec.ofNat 64 86400 from rfl, toNat_sdiv _ _ (by omega) (by decide), e1]
  generalize hw : (t.sec.srem 604800#64).sdiv 86400#64 = w at e2
  have key : (if w.slt 4#64 then w + 3#64 else w - 4#64).toNat = (t.sec.toNat / 86400 + 3) % 7 := by
    have hlt : w.slt 4#64 = true ↔ w.toNat < 4 := by
      have hm : w.msb = false := by rw [BitVec.msb_eq_decide]; simp; omega
      rw [BitVec.slt_iff_toInt_lt, BitVec.toInt_eq_toNat_of_msb hm]
      simp; omega
    split
    · next hs =>
      have := hlt.1 hs
      rw [BitVec.toNat_add]; simp; omega
    · next hs =>
      have : ¬ w.toNat < 4 := fun hh => hs (hlt.2 hh)
      rw [BitVec.toNat_sub]; simp; omega
  simp only [Time.weekdays, hw]
  rw [shl1_small 8 _ (by rw [key]; omega), key]
  rfl

example := C29_weekday ⟨1700000000#64, 5#32⟩ (by decide +kernel)

/-- C29: exactly one weekday constant contains the reported day. -/
theorem C29_weekday_check (t : Time) (h : 0 ≤ t.sec.toInt) (d : Nat) (hd : d < 7) :
    ∃ w, t.weekdays = some w ∧
      (weekdaysCheck (weekdaysConst d) w = true ↔ d = (t.sec.toNat / 86400 + 3) % 7) := by
  refine ⟨_, C29_weekday t h, ?_⟩
  have : ∀ d < 7, ∀ e < 7, (weekdaysCheck (weekdaysConst d) (weekdaysConst e) = true ↔ d = e) := by
    decide +kernel
  exact this d hd _ (by omega)

example : (⟨0#64, 0#32⟩ : Time).weekdays = some 0b00001000#8 ∧
    (⟨345600#64, 0#32⟩ : Time).weekdays = some 0b00000001#8 := by decide +kernel

/-- C187 is violated before the epoch: one second before it (a Wednesday) is reported as Thursday,
and four days before it the code panics. -/
theorem C187_before_epoch_violated :
    (⟨BitVec.ofInt 64 (-1), 0#32⟩ : Time).weekdays = some (weekdaysConst 3) ∧
    (⟨BitVec.ofInt 64 (-4 * 86400), 0#32⟩ : Time).weekdays = none := by decide +kernel

/-- C187: at or after the epoch the reported hour has exactly the bit numbered by the UTC hour.
Missing: times before the epoch, and the named constants (refuted:
`C187_before_epoch_any_violated`, `C187_hour_before_epoch_violated`,
`C187_before_epoch_violated` and others). -/
theorem C187_hour_bit_partial (t : Time) (h : 0 ≤ t.sec.toInt) :
    t.dayHours = some (1#32 <<< (t.sec.toNat % 86400 / 3600)) := by
  obtain ⟨h1, h2⟩ := sec_nat t.sec h
  have e1 : (t.sec.srem 86400#64).toNat = t.sec.toNat % 86400 := toNat_srem t.sec 86400 h (by decide)
  have e2 : ((t.sec.srem 86400#64).sdiv 3600#64).toNat = t.sec.toNat % 86400 / 3600 := by
    rw [show (3600#64 : I64) = BitVec.ofNat 64 3600 from rfl, toNat_sdiv _ _ (by omega) (by decide), e1]
  simp only [Time.dayHours]
  rw [shl1_small 32 _ (by rw [e2]; omega), e2]

example := C187_hour_bit_partial ⟨1700000000#64, 5#32⟩ (by decide +kernel)

/-- C187 is violated: the named constants are shifted by one, so at no time does the constant of the
current hour match; from one o'clock on the constant of the previous hour does. -/
theorem C187_hour_constants_violated (t : Time) (h : 0 ≤ t.sec.toInt) :
    ∃ b, t.dayHours = some b ∧
      dayHoursCheck (dayHoursConst (t.sec.toNat % 86400 / 3600)) b = false ∧
      (∀ k < 24, (dayHoursCheck (dayHoursConst k) b = true ↔ k + 1 = t.sec.toNat % 86400 / 3600)) := by
  refine ⟨_, C187_hour_bit_partial t h, ?_⟩
  have h1 : t.sec.toNat % 86400 / 3600 < 24 := by omega
  have k1 : ∀ a < 24, dayHoursCheck (dayHoursConst a) (1#32 <<< a) = false := by decide +kernel
  have k2 : ∀ a < 24, ∀ k < 24,
      (dayHoursCheck (dayHoursConst k) (1#32 <<< a) = true ↔ k + 1 = a) := by decide +kernel
  exact ⟨k1 _ h1, k2 _ h1⟩

example := C187_hour_constants_violated ⟨1700000000#64, 5#32⟩ (by decide +kernel)

/-! ## Atomic wall clock -/

/-- C277 is violated: a compare-and-swap that reports failure because only the nanoseconds differ
has nevertheless overwritten the seconds. -/
theorem C277_failed_cas_changes_violated (a old new : Time) (hs : a.sec = old.sec)
    (hn : a.nsec ≠ old.nsec) :
    (a.compareAndSwap old new).1 = false ∧ (a.compareAndSwap old new).2 = ⟨new.sec, a.nsec⟩ := by
  simp [Time.compareAndSwap, hs, hn]

example := C277_failed_cas_changes_violated ⟨5#64, 1#32⟩ ⟨5#64, 2#32⟩ ⟨9#64, 9#32⟩ rfl (by decide)

/-- C277, what holds without concurrency: a compare-and-swap succeeds exactly if the value is the
expected one and then installs the new value; with different seconds it changes nothing.
Missing: what happens with other goroutines in between (refuted: `C277_mixed_swap_violated`,
`C277_failed_cas_changes_violated`, `C277_torn_load_violated` and others). -/
theorem C277_cas_partial (a old new : Time) :
    ((a.compareAndSwap old new).1 = true ↔ a = old) ∧
    (a = old → (a.compareAndSwap old new).2 = new) ∧
    (a.sec ≠ old.sec → (a.compareAndSwap old new).2 = a) := by
  cases a with | mk s n => cases old with | mk s' n' =>
  simp only [Time.compareAndSwap, Time.mk.injEq]
  by_cases h1 : s = s' <;> by_cases h2 : n = n' <;> simp [h1, h2]

/-- C277 is violated: a `Load` between the two writes of a `Store` returns a time that was never
stored, whatever the old and the new time are, as long as they differ in both parts. -/
theorem C277_torn_load_violated (old new : Time) (hs : old.sec ≠ new.sec)
    (hn : old.nsec ≠ new.nsec) (l : Time) (o : Bool → I32) :
    let w := [AtomicStep.storeLoad true, .storeSec true, .loadSec, .loadNsec,
      .storeNsec true].foldl AtomicWorld.step ⟨old, fun _ => new, o, l⟩
    w.shared = new ∧ w.loaded ≠ old ∧ w.loaded ≠ new := by
  refine ⟨?_, ?_, ?_⟩
  · simp [AtomicWorld.step]
  · intro h
    have := congrArg Time.sec h
    simp [AtomicWorld.step] at this
    exact hs this.symm
  · intro h
    have := congrArg Time.nsec h
    simp [AtomicWorld.step] at this
    exact hn this

example := C277_torn_load_violated ⟨5#64, 1#32⟩ ⟨9#64, 9#32⟩ (by decide) (by decide) ⟨0#64, 0#32⟩ (fun _ => 0#32)

/-- C277 is violated: two concurrent `Store`s can leave the seconds of one and the nanoseconds of the
other, for good. -/
theorem C277_mixed_store_violated (old a b : Time) (hs : a.sec ≠ b.sec) (hn : a.nsec ≠ b.nsec)
    (hna : a.nsec ≠ old.nsec) (l : Time) (o : Bool → I32) :
    let w := [AtomicStep.storeLoad true, .storeLoad false, .storeSec true, .storeSec false,
      .storeNsec true, .storeNsec false].foldl AtomicWorld.step
        ⟨old, fun i => if i then a else b, o, l⟩
    w.shared ≠ a ∧ w.shared ≠ b ∧ w.shared = ⟨b.sec, a.nsec⟩ := by
  have key : ([AtomicStep.storeLoad true, .storeLoad false, .storeSec true, .storeSec false,
      .storeNsec true, .storeNsec false].foldl AtomicWorld.step
        ⟨old, fun i => if i then a else b, o, l⟩).shared = ⟨b.sec, a.nsec⟩ := by
    simp [AtomicWorld.step, hna]
  simp only [key]
  refine ⟨?_, ?_, trivial⟩
  · intro h; exact hs (congrArg Time.sec h).symm
  · intro h; have h' := congrArg Time.nsec h; exact hn h'

example := C277_mixed_store_violated ⟨5#64, 1#32⟩ ⟨9#64, 9#32⟩ ⟨7#64, 7#32⟩ (by decide) (by decide) (by decide) ⟨0#64, 0#32⟩ (fun _ => 0#32)

/-- C277, what holds: a `Store` without interference installs the time, and a `Load` without
interference returns it.
Missing: what happens with other goroutines in between (refuted: `C277_mixed_swap_violated`,
`C277_failed_cas_changes_violated`, `C277_torn_load_violated` and others). -/
theorem C277_store_load_partial (old new l : Time) (o : Bool → I32) :
    let w := [AtomicStep.storeLoad true, .storeSec true, .storeNsec true, .loadSec,
      .loadNsec].foldl AtomicWorld.step ⟨old, fun _ => new, o, l⟩
    w.shared = new ∧ w.loaded = new := by
  simp [AtomicWorld.step]

/-! ## Monotonic clock -/

/-- C74 is violated: the 'seconds elapsed' of the monotonic clock are its nanoseconds. -/
theorem C74_second_elapsed_violated (t : I64) : monoSecondElapsed t = t := by
  simp only [monoSecondElapsed, oneSecond]
  apply BitVec.toInt_inj.1
  have r := range64 t
  rw [BitVec.toInt_sdiv, show (1#64 : I64).toInt = 1 by decide, Int.tdiv_one, bm64 (by omega) (by omega)]

/-- C74 is violated: the 'nanoseconds within the second' are always zero, and at time zero asking
for them panics. -/
theorem C74_nano_in_second_violated (t : I64) :
    monoNanoInSecondElapsed t = if t = 0#64 then none else some 0#32 := by
  simp only [monoNanoInSecondElapsed, C74_second_elapsed_violated]
  split
  · rfl
  · have : t.srem t = 0#64 := by
      apply BitVec.toInt_inj.1
      rw [BitVec.toInt_srem, Int.tmod_self]; rfl
    rw [this]; rfl

/-- C74, what holds: comparing, adding and subtracting instants is exact while the results fit.
Missing: the elapsed seconds and the nanoseconds within the second (refuted:
`C74_second_elapsed_violated`, `C74_nano_in_second_violated`). -/
theorem C74_arithmetic_partial (t u d : I64) :
    (monoPass t u = true ↔ u.toInt < t.toInt) ∧
    (-9223372036854775808 ≤ t.toInt + d.toInt → t.toInt + d.toInt < 9223372036854775808 →
      (monoAdd t d).toInt = t.toInt + d.toInt ∧ monoUntil (monoAdd t d) t = d ∧
      monoSince t (monoAdd t d) = d) := by
  refine ⟨BitVec.slt_iff_toInt_lt, fun h1 h2 => ⟨?_, ?_, ?_⟩⟩
  · rw [monoAdd, BitVec.toInt_add, bm64 h1 h2]
  · simp only [monoUntil, monoAdd]
    rw [BitVec.add_comm, BitVec.add_sub_cancel]
  · simp only [monoSince, monoAdd]
    rw [BitVec.add_comm, BitVec.add_sub_cancel]

example : monoSecondElapsed 5000000000#64 = 5000000000#64 ∧
    monoNanoInSecondElapsed 5000000001#64 = some 0#32 := by decide +kernel

end Memar.Time
