import Verif.Tcp.Timing

/-!
# Model of the end and the reuse of a TCP stream (`net/tcp/stream.go`, `stream-timing*.go`)

The receiving and sending halves have empty `Init`, `Reinit` and `Deinit` (net/tcp/stream-recv.go:21-32,
net/tcp/stream-send.go:22-33).  What stopping an initialised timer answers is a parameter; `timer/` is modelled
in `Verif.Timer`.
-/

namespace Memar.Tcp

/-- net/tcp/stream-timing-keep_alive.go:31-37 `Reinit` -/
def kaReinit (k : Checker) : Checker := { k with enable := false, interval := 0, nextCheck := 0, retryCount := 0 }

/-- net/tcp/stream-timing-user_timeout.go:24-30 `Init`; `kaIdle` is `CNF_KeepAlive_Idle` -/
def utInit (kaIdle now : Int) (k : Checker) : Checker × Int :=
  ({ k with enable := true, idle := kaIdle, nextCheck := now + kaIdle }, kaIdle)

/-- net/tcp/stream-timing-user_timeout.go:31-36 `Reinit` -/
def utReinit (k : Checker) : Checker := { k with enable := true, nextCheck := 0, retryCount := 0 }

/-- net/tcp/stream-timing-delayed_acknowledgment.go:27-29 `Reinit` -/
def daReinit (d : Delayed) : Delayed := d

/-- The errors of ending a stream. -/
inductive LifeErr where
  | timerNotInit
  | timerOther
deriving DecidableEq, Repr

/-- timer/timer-async.go:131-168 `Stop` as a stream sees it: the timer has a callback only once
net/tcp/stream-timing.go:48-49 has run, which is when `armed` has an entry; `stopped` is what stopping an
initialised timer answers -/
def timerStop (stopped : Option LifeErr) (t : Timing) : Option LifeErr :=
  if t.armed = [] then some .timerNotInit else stopped

/-- net/tcp/stream-timing.go:53-68 `Reinit` -/
def timingReinit (stopped : Option LifeErr) (t : Timing) : Timing × Option LifeErr :=
  ({ t with ka := kaReinit t.ka, de := daReinit t.de }, timerStop stopped t)

/-- net/tcp/stream-timing.go:69-84 `Deinit` -/
def timingDeinit (stopped : Option LifeErr) (t : Timing) : Option LifeErr := timerStop stopped t

/-- A stream with its timers, and how often its receiving and sending halves were taken down. -/
structure Living where
  stream : Stream
  timing : Timing
  recvDown : Nat
  sendDown : Nat
deriving DecidableEq, Repr

/-- net/tcp/stream.go:71-74 `Reinit` -/
def Living.reinit (s : Living) : Living × Option LifeErr := (s, none)

/-- net/tcp/stream.go:90-95 `Reset` -/
def Living.reset (s : Living) : Living × Option LifeErr := s.reinit

/-- net/tcp/stream.go:75-87 `Deinit` -/
def Living.deinit (stopped : Option LifeErr) (s : Living) : Living × Option LifeErr :=
  match timingDeinit stopped s.timing with
  | some e => (s, some e)
  | none => ({ s with recvDown := s.recvDown + 1, sendDown := s.sendDown + 1 }, none)

/-- net/tcp/stream-internal.go:148-156 `close`; `sendFIN` (188-191) does nothing -/
def Living.close (stopped : Option LifeErr) (s : Living) : Living × Option LifeErr := s.deinit stopped

end Memar.Tcp
