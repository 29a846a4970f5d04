import Verif.Time.Clock
import Verif.Time.Props
import Verif.Time.ElapsedProps

/-!
# C166, C167, C168: units of UTC time, the atomic monotonic clock, and texts of times
-/

namespace Memar.Time

/-- **C166**: the minutes, weeks, months of thirty days and tropical years elapsed are the time elapsed divided by the
unit, rounded down, for every normalised time at or after the epoch. -/
theorem C166_units (t : Time) (hn : t.Normal) (h0 : 0 ≤ t.sec.toInt) :
    t.minuteElapsed.toInt = t.instant / 60000000000 ∧
    t.weekElapsed.toInt = t.instant / (7 * 86400000000000) ∧
    t.monthElapsed.toInt = t.instant / (30 * 86400000000000) ∧
    t.tropicalYearElapsed.toInt = t.instant / (31556926 * 1000000000) := by
  unfold Time.Normal at hn
  unfold Time.instant at *
  refine ⟨?_, ?_, ?_, ?_⟩
  · rw [Time.minuteElapsed, toInt_sdiv_pos _ _ h0 (by decide), show (60#64 : I64).toInt = 60 by decide]; omega
  · rw [Time.weekElapsed, toInt_sdiv_pos _ _ h0 (by decide), show (604800#64 : I64).toInt = 604800 by decide]; omega
  · rw [Time.monthElapsed, toInt_sdiv_pos _ _ h0 (by decide), show (2592000#64 : I64).toInt = 2592000 by decide]; omega
  · rw [Time.tropicalYearElapsed, toInt_sdiv_pos _ _ h0 (by decide),
      show tropicalYear.toInt = 31556926 by decide]; omega

example : let t : Time := ⟨1700000000#64, 5#32⟩
    t.Normal ∧ 0 ≤ t.sec.toInt ∧ t.tropicalYearElapsed = 53#64 ∧ t.weekElapsed = 2810#64 := by
  simp only [Time.Normal]; decide +kernel

/-- **C247** violated for the calendar year: it is 0 whatever the time. -/
theorem C247_calendar_year_violated (t : Time) (h : 31622400 ≤ t.sec.toInt) :
    t.calendarYearElapsed = 0#64 ∧ 1 ≤ t.sec.toInt / 31622400 := by
  refine ⟨rfl, ?_⟩
  omega

example : 31622400 ≤ (⟨1700000000#64, 0#32⟩ : Time).sec.toInt := by decide

/-- **C247** violated for the epoch of UTC times: the elapsed units are said to be counted from the first of January of
the year 1, which is 719162 days before the Unix epoch, but the current time is the reading of the Unix clock. -/
theorem C247_epoch_violated (sec : I64) (nsec : I32) (h0 : 0 ≤ sec.toInt) :
    (utcNow sec nsec).dayElapsed.toInt = sec.toInt / 86400 ∧
    (utcNow sec nsec).dayElapsed.toInt ≠ sec.toInt / 86400 + 719162 := by
  have : (utcNow sec nsec).dayElapsed.toInt = sec.toInt / 86400 := by
    rw [Time.dayElapsed, show (utcNow sec nsec).sec = sec from rfl, toInt_sdiv_pos _ _ h0 (by decide),
      show (86400#64 : I64).toInt = 86400 by decide]
  exact ⟨this, by omega⟩

example := C247_epoch_violated 1700000000#64 5#32 (by decide +kernel)

/-- **C166**: the current UTC time is the reading of the clock. -/
theorem C166_now (sec : I64) (nsec : I32) (h1 : 0 ≤ nsec.toInt) (h2 : nsec.toInt < 1000000000) :
    (utcNow sec nsec).Normal ∧ (utcNow sec nsec).instant = sec.toInt * 1000000000 + nsec.toInt ∧
    utcNow sec nsec = unixNow sec nsec ∧ ∀ t : Time, t.changeTo sec nsec = unixNow sec nsec :=
  ⟨⟨h1, h2⟩, rfl, rfl, fun _ => rfl⟩

example : 0 ≤ (5#32 : I32).toInt ∧ (5#32 : I32).toInt < 1000000000 := by decide

/-- **C247** violated for local time: it is the epoch for every time and every zone, so no time after the first day and
no zone of less than a day's difference is right. -/
theorem C247_local_violated (t : Time) (zone : Int) (h1 : 86400 ≤ t.sec.toInt) (h2 : -86400 < zone) :
    t.local.sec.toInt ≠ t.sec.toInt + zone := by
  have : t.local.sec.toInt = 0 := rfl
  omega

example : (86400 : Int) ≤ (⟨1700000000#64, 0#32⟩ : Time).sec.toInt ∧ (-86400 : Int) < 12600 := by decide

/-- **C166**: a wall clock time has passed the clock exactly when its instant is after it. -/
theorem C166_pass_now (t now : Time) (ht : t.Normal) (hn : now.Normal) :
    t.passNow now = true ↔ now.instant < t.instant := by
  unfold Time.Normal at *
  unfold Time.passNow Time.pass Time.instant
  rw [Bool.or_eq_true, Bool.and_eq_true, beq_iff_eq, BitVec.slt_iff_toInt_lt, BitVec.slt_iff_toInt_lt]
  constructor
  · rintro (h | ⟨h, h'⟩)
    · omega
    · rw [h]; omega
  · intro h
    by_cases e : t.sec = now.sec
    · right; refine ⟨e, ?_⟩; rw [e] at h; omega
    · left
      have : t.sec.toInt ≠ now.sec.toInt := fun hh => e (BitVec.eq_of_toInt_eq hh)
      omega

example : (⟨5#64, 7#32⟩ : Time).passNow ⟨5#64, 6#32⟩ = true ∧ (⟨5#64, 7#32⟩ : Time).Normal := by
  simp only [Time.Normal]; decide

/-! ## The monotonic clock -/

/-- **C167**: while two readings are less than half the range apart, the time until now and since now are the exact
differences, and a time has passed now exactly when the time until it is positive. -/
theorem C167_now (t now : I64) (h1 : -9223372036854775808 < t.toInt - now.toInt)
    (h2 : t.toInt - now.toInt < 9223372036854775808) :
    (monoUntilNow t now).toInt = t.toInt - now.toInt ∧ (monoSinceNow t now).toInt = now.toInt - t.toInt ∧
    (monoPassNow t now = true ↔ 0 < (monoUntilNow t now).toInt) := by
  have e1 : (monoUntilNow t now).toInt = t.toInt - now.toInt := by
    rw [monoUntilNow, BitVec.toInt_sub, bm64 (by omega) (by omega)]
  refine ⟨e1, ?_, ?_⟩
  · rw [monoSinceNow, BitVec.toInt_sub, bm64 (by omega) (by omega)]
  · rw [e1, monoPassNow, BitVec.slt_iff_toInt_lt]; omega

example : (monoUntilNow 12#64 5#64).toInt = 7 ∧ monoPassNow 12#64 5#64 = true := by decide

/-- The durations added by a schedule. -/
def addsOf : List (Nat × AtomicOp) → List I64
  | [] => []
  | (_, .add d) :: ops => d :: addsOf ops
  | _ :: ops => addsOf ops

theorem sum_perm {l l' : List I64} (h : l.Perm l') : ∀ v : I64, l.foldl (· + ·) v = l'.foldl (· + ·) v := by
  induction h with
  | nil => intro v; rfl
  | cons a _ ih => intro v; exact ih (v + a)
  | swap a b l =>
    intro v
    simp only [List.foldl_cons]
    rw [show v + b + a = v + a + b by rw [BitVec.add_assoc, BitVec.add_comm b a, ← BitVec.add_assoc]]
  | trans _ _ i1 i2 => intro v; exact (i1 v).trans (i2 v)

theorem run_adds (ops : List (Nat × AtomicOp)) (h : ∀ x ∈ ops, (∃ d, x.2 = .add d) ∨ x.2 = .load) :
    ∀ v, (atomicRun ops v).1 = (addsOf ops).foldl (· + ·) v := by
  induction ops with
  | nil => intro v; rfl
  | cons x ops ih =>
    intro v
    obtain ⟨i, op⟩ := x
    have ih' := ih (fun x hx => h x (List.mem_cons_of_mem _ hx))
    rcases h (i, op) (by simp) with ⟨d, e⟩ | e <;> simp only at e <;> subst e
    · rw [atomicRun, addsOf]; exact ih' _
    · rw [atomicRun, show addsOf ((i, AtomicOp.load) :: ops) = addsOf ops from rfl]; exact ih' _

/-- **C167**: threads that add durations and read the clock, in any interleaving: no addition is lost, and the clock
ends at the same time in every interleaving that makes the same additions. -/
theorem C167_adds (ops ops' : List (Nat × AtomicOp)) (h : ∀ x ∈ ops, (∃ d, x.2 = .add d) ∨ x.2 = .load)
    (h' : ∀ x ∈ ops', (∃ d, x.2 = .add d) ∨ x.2 = .load) (v : I64) :
    (atomicRun ops v).1 = (addsOf ops).foldl (· + ·) v ∧
    ((addsOf ops).Perm (addsOf ops') → (atomicRun ops v).1 = (atomicRun ops' v).1) := by
  refine ⟨run_adds ops h v, fun hp => ?_⟩
  rw [run_adds ops h, run_adds ops' h']
  exact sum_perm hp v

example : (atomicRun [(0, .add 5#64), (1, .add 7#64), (0, .load)] 1#64) =
    (13#64, [(0, .unit), (1, .unit), (0, .time 13#64)]) := by decide

/-- **C167**: in any schedule of swaps, every value that was ever in the clock is handed to exactly one swap, or is
still in the clock: the values put in, in order, are the values handed out followed by the one left. -/
theorem C167_swaps (ops : List (Nat × I64)) (v : I64) :
    let r := atomicRun (ops.map fun o => (o.1, .swap o.2)) v
    r.2 ++ [(0, .time r.1)] = (List.zipWith (fun i w => (i, AtomicRes.time w)) (ops.map (·.1) ++ [0])
      (v :: ops.map (·.2))) := by
  dsimp only
  induction ops generalizing v with
  | nil => rfl
  | cons o ops ih =>
    simp only [List.map_cons, atomicRun, AtomicOp.step, List.cons_append, List.zipWith_cons_cons]
    rw [ih]

example : atomicRun ([(3, 5#64), (4, 6#64)].map fun o => (o.1, .swap o.2)) 1#64 =
    (6#64, [(3, .time 1#64), (4, .time 5#64)]) := by decide

/-- **C167**: of any number of threads that try to change the clock from the same value to other values, exactly the
first one to run succeeds; when the clock has another value and nobody puts that one back, none does. -/
theorem C167_compare (old : I64) (ops : List (Nat × I64)) (hne : ∀ o ∈ ops, o.2 ≠ old) (v : I64) :
    (v ≠ old → atomicRun (ops.map fun o => (o.1, .cas old o.2)) v = (v, ops.map fun o => (o.1, .swapped false))) ∧
    (v = old → ∀ i new rest, ops = (i, new) :: rest →
      atomicRun (ops.map fun o => (o.1, .cas old o.2)) v =
        (new, (i, .swapped true) :: rest.map fun o => (o.1, .swapped false))) := by
  have key : ∀ (ops : List (Nat × I64)) (v : I64), v ≠ old →
      atomicRun (ops.map fun o => (o.1, .cas old o.2)) v = (v, ops.map fun o => (o.1, .swapped false)) := by
    intro ops
    induction ops with
    | nil => intro v _; rfl
    | cons o ops ih =>
      intro v hv
      simp only [List.map_cons, atomicRun, AtomicOp.step, if_neg hv]
      rw [ih v hv]
  refine ⟨key ops v, ?_⟩
  rintro rfl i new rest rfl
  simp only [List.map_cons, atomicRun, AtomicOp.step, if_true]
  rw [key rest new (hne (i, new) (by simp))]

example : atomicRun ([(3, 5#64), (4, 6#64)].map fun o => (o.1, .cas 1#64 o.2)) 1#64 =
    (5#64, [(3, .swapped true), (4, .swapped false)]) := by decide

/-- **C248** violated for updates made of a read and a store: an addition of another thread between them is lost. -/
theorem C248_read_store_violated (v d e : I64) (hd : d ≠ 0#64) :
    let seen := v
    (atomicRun [(0, .load), (1, .add d), (0, .store (seen + e))] v).1 = v + e ∧
    (atomicRun [(0, .load), (1, .add d), (0, .store (seen + e))] v).1 ≠ v + d + e := by
  refine ⟨rfl, ?_⟩
  intro h
  have h' : v + e = v + d + e := h
  refine hd ?_
  have := (BitVec.add_left_inj (x := v) (y := v + d) e).mp h'
  have h2 : v + 0#64 = v + d := by rw [BitVec.add_zero]; exact this
  exact ((BitVec.add_right_inj v).mp h2).symm

example : (7#64 : I64) ≠ 0#64 := by decide

/-! ## Texts -/

/-- **C168** violated for every kind of time: all times have the same text, so no reader can tell them apart. -/
theorem C168_same_text_violated (t u : Time) (m n : I64) :
    t.toText = u.toText ∧ monoToText m = monoToText n ∧
    ¬ ∃ read : List Char → I64, ∀ m, read (monoToText m).1 = m := by
  refine ⟨rfl, rfl, ?_⟩
  rintro ⟨read, h⟩
  have a := h 0#64
  have b := h 1#64
  have : read (monoToText 0#64).1 = read (monoToText 1#64).1 := rfl
  rw [a, b] at this
  exact absurd this (by decide)

/-- **C168** violated for reading: every text is accepted without an error and changes nothing. -/
theorem C168_read_violated (t : Time) (m : I64) (s : List Char) :
    t.fromText s = (t, false) ∧ monoFromText m s = (m, false) := ⟨rfl, rfl⟩

/-- **C168** violated for the atomic monotonic clock: reading any text, even the one it was written as, sets it to 0
without an error. -/
theorem C168_atomic_violated (v : I64) (s : List Char) (hv : v ≠ 0#64) :
    (AtomicOp.step v (.fromText s)) = (0#64, .unit) ∧ (AtomicOp.step v (.fromText (monoToText v).1)).1 ≠ v :=
  ⟨rfl, Ne.symm hv⟩

example : (9#64 : I64) ≠ 0#64 := by decide

/-- **C168**: what does hold: writing a time as a text and reading it into the same object leaves it as it was.
Missing: that the text tells the time (refuted: `C168_text_is_placeholder_violated`,
`C168_same_text_violated`, `C168_read_violated` and others). -/
theorem C168_same_object_partial (t : Time) (m : I64) :
    (t.fromText t.toText.1).1 = t ∧ (monoFromText m (monoToText m).1).1 = m := ⟨rfl, rfl⟩

example : ((⟨5#64, 7#32⟩ : Time).fromText (⟨5#64, 7#32⟩ : Time).toText.1).1 = ⟨5#64, 7#32⟩ :=
  (C168_same_object_partial _ 0#64).1

end Memar.Time
