import Verif.Time.Model

/-!
# Model of reading the clocks, of the larger units of UTC time, of the atomic monotonic clock, and of texts of times

The readings of the clocks of the machine are parameters: time/unix/now.go and time/monotonic/now.go only declare them.
-/

namespace Memar.Time

/-- time/unix/time.go:40-44 `Now` (and time/unix/time.go:13), from a reading of the clock of the machine. -/
def unixNow (sec : I64) (nsec : I32) : Time := ⟨sec, nsec⟩

/-- time/utc/time.go:65-68 `Now` (and time/utc/time.go:12): the seconds and nanoseconds of the Unix clock
(time/unix/time.go:24-25). -/
def utcNow (sec : I64) (nsec : I32) : Time := ⟨(unixNow sec nsec).sec, (unixNow sec nsec).nsec⟩

/-- time/unix/time.go:37-39 and time/utc/time.go:62-64 `ChangeTo` -/
def Time.changeTo (_ : Time) (sec : I64) (nsec : I32) : Time := ⟨sec, nsec⟩

/-- time/utc/time.go:47 -/
def Time.minuteElapsed (t : Time) : I64 := t.sec.sdiv 60#64

/-- time/utc/time.go:50 -/
def Time.weekElapsed (t : Time) : I64 := t.sec.sdiv 604800#64

/-- time/utc/time.go:51 -/
def Time.monthElapsed (t : Time) : I64 := t.sec.sdiv 2592000#64

/-- time/utc/duration.go:19 `TropicalYear` -/
def tropicalYear : I64 := 365#64 * 24#64 * 60#64 * 60#64 + 5#64 * 60#64 * 60#64 + 48#64 * 60#64 + 46#64

/-- time/utc/time.go:52-54 -/
def Time.tropicalYearElapsed (t : Time) : I64 := t.sec.sdiv tropicalYear

/-- time/utc/time.go:55: not written yet, 0. -/
def Time.calendarYearElapsed (_ : Time) : I64 := 0#64

/-- time/utc/time.go:106-109 `Local`: not written yet, the zero time. -/
def Time.local (_ : Time) : Time := ⟨0#64, 0#32⟩

/-- time/unix/time.go:51 `PassNow`, at the clock reading `now`. -/
def Time.passNow (t now : Time) : Bool := t.pass now

/-- time/monotonic/time.go:51 `PassNow`, at the clock reading `now`. -/
def monoPassNow (t now : I64) : Bool := now.slt t

/-- time/monotonic/time.go:57 `SinceNow`, at the clock reading `now`. -/
def monoSinceNow (t now : I64) : I64 := now - t

/-- time/monotonic/time.go:63 `UntilNow`, at the clock reading `now`. -/
def monoUntilNow (t now : I64) : I64 := t - now

/-- The operations of the atomic monotonic clock, time/monotonic/atomic.go:20-26 and `FromString`,
time/monotonic/atomic.go:43-48, which ends in a store. -/
inductive AtomicOp
  | load
  | store (t : I64)
  | swap (t : I64)
  | cas (old new : I64)
  | add (d : I64)
  | fromText (s : List Char)

/-- What an operation returns: nothing, a time, or whether it swapped. -/
inductive AtomicRes
  | unit
  | time (t : I64)
  | swapped (b : Bool)
deriving DecidableEq, Repr

/-- time/monotonic/time.go:36-39 `FromString`: not written yet; the time stays as it is and there is no error. -/
def monoFromText (t : I64) (_ : List Char) : I64 × Bool := (t, false)

/-- time/monotonic/time.go:30-33 `ToString`: not written yet (and no error), also for the atomic clock,
time/monotonic/atomic.go:39-42. -/
def monoToText (_ : I64) : List Char × Bool := ("TODO:::".toList, false)

/-- One operation; each is one atomic access of the machine. -/
def AtomicOp.step (v : I64) : AtomicOp → I64 × AtomicRes
  | .load => (v, .time v)
  | .store t => (t, .unit)
  | .swap t => (t, .time v)
  | .cas old new => if v = old then (new, .swapped true) else (v, .swapped false)
  | .add d => (v + d, .unit)
  | .fromText s => ((monoFromText 0#64 s).1, .unit)

/-- A schedule of operations of any number of threads: the value in the end and what each operation returned. -/
def atomicRun : List (Nat × AtomicOp) → I64 → I64 × List (Nat × AtomicRes)
  | [], v => (v, [])
  | (i, op) :: ops, v => ((atomicRun ops (op.step v).1).1, (i, (op.step v).2) :: (atomicRun ops (op.step v).1).2)

/-- time/utc/time.go:25-28, time/unix/time.go:28-31 and time/unix/atomic.go:69-72 `ToString`: not written yet. -/
def Time.toText (_ : Time) : List Char × Bool := ([], false)

/-- time/utc/time.go:29-32, time/unix/time.go:32-35 and time/unix/atomic.go:73-76 `FromString`: not written yet. -/
def Time.fromText (t : Time) (_ : List Char) : Time × Bool := (t, false)

end Memar.Time
