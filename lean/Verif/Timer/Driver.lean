import Verif.Timer.TimingSpec

/-!
# Model of the loop that drives a timing queue, and of `Sleep`

The scheduler is not part of the repository: how late a thread wakes up after the time it asked for, and which
calls other threads make while it sleeps, are parameters.  Everything else is as in `Timing.lean`.
-/

namespace Memar.Timer.Queue

open Memar.Timer

/-- timer/timing.go:102-105: one round of `Start` on the clock reading `now`, up to the sleep: the queue after it and
the duration given to `Sleep` (`nextWhen.Until(now)` is the difference). -/
def startRound (fuel : Nat) (tg : Tg) (now : Int) : Out (Tg × Int) :=
  (checkTimers fuel tg now).bind fun r => .ok (r.1, r.2.1 - now)

/-- What the scheduler and the other threads do in one round: the bound on the timers run, the calls made during the
sleep, and by how much the thread wakes up late. -/
structure Round where
  fuel : Nat
  calls : List Call
  late : Nat
deriving Repr

/-- The time the thread of `Start` runs again when it asked at `now` to sleep for `d`: not before `now`. -/
def wakeAt (now d : Int) (late : Nat) : Int := (if d ≤ 0 then now else now + d) + late

/-- timer/timing.go:99-107: rounds of `Start` one after the other, from the clock reading `now`. -/
def driver : List Round → Tg → Int → Out (Tg × Int)
  | [], tg, now => .ok (tg, now)
  | r :: rs, tg, now =>
    (startRound r.fuel tg now).bind fun (tg1, d) =>
      (runCalls r.calls tg1).bind fun tg2 => driver rs tg2 (wakeAt now d r.late)

/-- timer/sleep.go:12-24: a negative or zero duration returns at once (`none`); otherwise the timer `t`, made for this
call, is started and the thread gives up the processor until its callback. -/
def sleep (tg : Tg) (t : Nat) (d now : Int) : Out (Option Tg) :=
  if d ≤ 0 then .ok none
  else (start tg t d now).bind fun r => .ok (some r.1)

end Memar.Timer.Queue
