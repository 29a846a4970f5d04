import Verif.Time.Model

/-!
# Model of the rest of `time/unix` and of the names of weekdays

`duration.OneSecond` is the constant 1 of type `Second` (time/duration/second.go:11). time/unix/time.go multiplies it with
nanoseconds; as written the types do not match. Here the constant is taken with its value.
-/

namespace Memar.Time

/-- time/unix/time.go:57-61: `Since`. -/
def Time.since (t base : Time) : I64 := (base.sec - t.sec) * oneSecond + (base.nsec - t.nsec).signExtend 64

/-- time/unix/time.go:88-106: `ElapsedByNanoSecond`. -/
def Time.elapsedByNano (t : Time) (d : I64) : I64 :=
  if d.slt 0#64 then 0#64
  else if d = 0#64 then t.nanoElapsed
  else
    let sec := (toSecAndNano d).1
    let nsec := (toSecAndNano d).2
    if (0#64 : I64).slt sec then
      t.sec.sdiv sec + (if (0#32 : I32).slt nsec then ((t.nsec.sdiv nsec).signExtend 64).sdiv oneSecond else 0#64)
    else (t.sec * oneSecond).sdiv (nsec.signExtend 64) + (t.nsec.sdiv nsec).signExtend 64

/-- time/unix/time.go:109-119: `ElapsedBySecond`. -/
def Time.elapsedBySecond (t : Time) (d : I64) : I64 :=
  if d.slt 0#64 then 0#64 else if d = 0#64 then t.nanoElapsed else t.sec.sdiv d

/-- time/unix/atomic.go:62-66: `Add`, run alone. -/
def Time.atomicAdd (a : Time) (d : I64) : Time := ⟨a.sec + (toSecAndNano d).1, a.nsec + (toSecAndNano d).2⟩

/-- The two atomic operations of `Swap` (time/unix/atomic.go:47-53), by goroutine number. -/
inductive SwapStep where
  | sec (i : Nat)
  | nsec (i : Nat)
  deriving DecidableEq, Repr

/-- The shared clock, and what each goroutine's two operations returned, in order of the operations. -/
structure SwapWorld where
  shared : Time
  gotSec : List (Nat × I64)
  gotNsec : List (Nat × I32)
  deriving DecidableEq, Repr

/-- One atomic operation; `value i` is the time goroutine `i` stores. -/
def SwapWorld.step (value : Nat → Time) (w : SwapWorld) : SwapStep → SwapWorld
  | .sec i => { w with shared := ⟨(value i).sec, w.shared.nsec⟩, gotSec := w.gotSec ++ [(i, w.shared.sec)] }
  | .nsec i => { w with shared := ⟨w.shared.sec, (value i).nsec⟩, gotNsec := w.gotNsec ++ [(i, w.shared.nsec)] }

/-- The languages time/utc/weekday.go knows, and any other. -/
inductive Lang where
  | english
  | persian
  | other
  deriving DecidableEq, Repr

/-- time/utc/weekday.go:30-68: `String`; the language is the application's. -/
def weekdaysString (l : Lang) (w : BitVec 8) : String :=
  match l with
  | .english =>
    if w = 0b00000001#8 then "Monday"
    else if w = 0b00000010#8 then "Tuesday"
    else if w = 0b00000100#8 then "Wednesday"
    else if w = 0b00001000#8 then "Thursday"
    else if w = 0b00010000#8 then "Friday"
    else if w = 0b00100000#8 then "Saturday"
    else if w = 0b01000000#8 then "Sunday"
    else ""
  | .persian =>
    if w = 0b00000001#8 then "دوشنبه"
    else if w = 0b00000010#8 then "سه شنبه"
    else if w = 0b00000100#8 then "چهارشنبه"
    else if w = 0b00001000#8 then "پنچ شنبه"
    else if w = 0b00010000#8 then "جمعه"
    else if w = 0b00100000#8 then "شنبه"
    else if w = 0b01000000#8 then "یکشنبه"
    else ""
  | .other => ""

end Memar.Time
