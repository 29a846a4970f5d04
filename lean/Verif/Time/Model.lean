import Verif.Base

/-!
# Model of the time packages

`time/duration`, `time/unix` (time and atomic time), `time/utc` (comparison, weekday and hour) and
`time/monotonic`.  `int64` and `int32` are bit vectors and wrap as in Go; `/` and `%` truncate
(`sdiv`, `srem`); a panic is `none`.

Not modelled: reading the clocks, the text forms (all empty in the code), and the expressions of
`unix.Time.Since` and `ElapsedByNanoSecond`, which multiply a `NanoSecond` by a `Second` and do not
type-check.
-/

namespace Memar.Time

/-- `int64` -/
abbrev I64 := BitVec 64
/-- `int32` -/
abbrev I32 := BitVec 32

/-- time/duration/second.go:13 `NanoSecondInSecond` -/
def nanoSecondInSecond : I64 := 1000000000#64

/-- time/duration/second.go:20-24 -/
def toNanoSecond (sec : I64) : I64 := sec * nanoSecondInSecond

/-- time/duration/second.go:26-29 -/
def secFromNano (nsec : I64) : I64 := nsec.sdiv nanoSecondInSecond

/-- time/duration/nano-second.go:16-26; the conversion to `int32` truncates. -/
def toSecAndNano (d : I64) : I64 × I32 :=
  (secFromNano d, (d - toNanoSecond (secFromNano d)).truncate 32)

/-- time/duration/nano-second.go:28-30; the conversion from `int32` keeps the sign. -/
def fromSecAndNano (sec : I64) (nsec : I32) : I64 := toNanoSecond sec + nsec.signExtend 64

/-- time/duration/micro-second.go:16-18 -/
def microFromSecAndNano (sec : I64) (nsec : I32) : I64 :=
  sec * 1000000#64 + (nsec.sdiv 1000#32).signExtend 64

/-- time/duration/milli-second.go:18-20 -/
def milliFromSecAndNano (sec : I64) (nsec : I32) : I64 :=
  sec * 1000#64 + (nsec.sdiv 1000000#32).signExtend 64

/-- time/unix/time.go:17-20 and time/utc/time.go:14-17 -/
structure Time where
  sec : I64
  nsec : I32
deriving DecidableEq, Repr

/-- time/unix/time.go:45-50 and time/utc/time.go:91-96 -/
def Time.pass (t frm : Time) : Bool :=
  frm.sec.slt t.sec || (t.sec == frm.sec && frm.nsec.slt t.nsec)

/-- time/unix/time.go:52-56 `Add` and time/utc/time.go:99-103 `AddDuration` -/
def Time.add (t : Time) (d : I64) : Time :=
  ⟨t.sec + (toSecAndNano d).1, t.nsec + (toSecAndNano d).2⟩

/-- time/unix/time.go:65-68 and time/utc/time.go:34-37 -/
def Time.nanoElapsed (t : Time) : I64 := fromSecAndNano t.sec t.nsec

/-- time/unix/time.go:71-74 and time/utc/time.go:38-41 -/
def Time.microElapsed (t : Time) : I64 := microFromSecAndNano t.sec t.nsec

/-- time/unix/time.go:77-80 and time/utc/time.go:42-45 -/
def Time.milliElapsed (t : Time) : I64 := milliFromSecAndNano t.sec t.nsec

/-- time/unix/time.go:84 (via time/earth/duration-hour.go:25-28) and time/utc/time.go:48 -/
def Time.hourElapsed (t : Time) : I64 := t.sec.sdiv 3600#64

/-- time/unix/time.go:85 (via time/earth/duration-day.go:25-28) and time/utc/time.go:49 -/
def Time.dayElapsed (t : Time) : I64 := t.sec.sdiv 86400#64

/-- time/utc/time.go:77-83 -/
def Time.until (t to : Time) : Time := ⟨t.sec - to.sec, t.nsec - to.nsec⟩

/-- time/utc/time.go:86-88 -/
def Time.untilTo (t to : Time) : I64 := (t.until to).nanoElapsed

/-- Go `1 << n` for an `int64` count and a `w`-bit result: a negative count panics. -/
def shl1 (w : Nat) (n : I64) : Option (BitVec w) :=
  if n.slt 0#64 then none else some (1#w <<< n.toNat)

/-- time/utc/time.go:111-116 -/
def Time.dayHours (t : Time) : Option (BitVec 32) :=
  shl1 32 ((t.sec.srem 86400#64).sdiv 3600#64)

/-- time/utc/time.go:117-128 -/
def Time.weekdays (t : Time) : Option (BitVec 8) :=
  let weekDay := (t.sec.srem 604800#64).sdiv 86400#64
  shl1 8 (if weekDay.slt 4#64 then weekDay + 3#64 else weekDay - 4#64)

/-- time/utc/dayhour.go:9-36: the constant `DayHours_h`; `iota` is one on the line of
`DayHours_0`. -/
def dayHoursConst (h : Nat) : BitVec 32 := 1#32 <<< (h + 1)

/-- time/utc/dayhour.go:39 -/
def dayHoursCheck (dh hour : BitVec 32) : Bool := hour &&& dh != 0#32

/-- time/utc/weekday.go:14-24: the constants from Monday (0) to Sunday (6). -/
def weekdaysConst (d : Nat) : BitVec 8 := 1#8 <<< d

/-- time/utc/weekday.go:27 -/
def weekdaysCheck (w day : BitVec 8) : Bool := day &&& w != 0#8

/-! ## The atomic wall clock, `time/unix/atomic.go`, sequentially -/

/-- time/unix/atomic.go:42-46, run alone: the compare-and-swap sees the value just loaded. -/
def Time.store (_a t : Time) : Time := t

/-- time/unix/atomic.go:54-61, run alone. -/
def Time.compareAndSwap (a old new : Time) : Bool × Time :=
  if a.sec = old.sec then
    if a.nsec = old.nsec then (true, new) else (false, ⟨new.sec, a.nsec⟩)
  else (false, a)

/-! ## The monotonic clock -/

/-- time/duration/second.go:11 -/
def oneSecond : I64 := 1#64

/-- time/monotonic/time.go:22-24 and time/monotonic/atomic.go:30-32 -/
def monoSecondElapsed (t : I64) : I64 := t.sdiv oneSecond

/-- time/monotonic/time.go:25-27 and time/monotonic/atomic.go:33-36: a remainder by zero panics. -/
def monoNanoInSecondElapsed (t : I64) : Option I32 :=
  if monoSecondElapsed t = 0#64 then none else some ((t.srem (monoSecondElapsed t)).truncate 32)

/-- time/monotonic/time.go:42 -/
def monoAdd (t d : I64) : I64 := t + d

/-- time/monotonic/time.go:48 -/
def monoPass (t frm : I64) : Bool := frm.slt t

/-- time/monotonic/time.go:54 `Since` -/
def monoSince (t frm : I64) : I64 := frm - t

/-- time/monotonic/time.go:60 `Until` -/
def monoUntil (t to : I64) : I64 := t - to

/-! ## The atomic wall clock, interleaved -/

/-- The steps of `Store` and `Load` on the two shared words (time/unix/atomic.go:36-46). -/
inductive AtomicStep
  /-- line 43 of a `Store` by `i` -/
  | storeLoad (i : Bool)
  /-- line 44 -/
  | storeSec (i : Bool)
  /-- line 45 -/
  | storeNsec (i : Bool)
  /-- line 37, first operand -/
  | loadSec
  /-- line 37, second operand -/
  | loadNsec
deriving DecidableEq, Repr

/-- Two storing goroutines with their values and local copies, and one loading goroutine. -/
structure AtomicWorld where
  shared : Time
  value : Bool → Time
  oldNsec : Bool → I32
  loaded : Time

/-- One atomic operation of time/unix/atomic.go:36-46. -/
def AtomicWorld.step (w : AtomicWorld) : AtomicStep → AtomicWorld
  | .storeLoad i => { w with oldNsec := fun j => if j = i then w.shared.nsec else w.oldNsec j }
  | .storeSec i => { w with shared := ⟨(w.value i).sec, w.shared.nsec⟩ }
  | .storeNsec i =>
    if w.shared.nsec = w.oldNsec i then { w with shared := ⟨w.shared.sec, (w.value i).nsec⟩ } else w
  | .loadSec => { w with loaded := ⟨w.shared.sec, w.loaded.nsec⟩ }
  | .loadNsec => { w with loaded := ⟨w.loaded.sec, w.shared.nsec⟩ }

end Memar.Time
