import Verif.Tcp.Model

/-!
# Model of the timers of a TCP stream (`net/tcp/stream-timing*.go`)

Times and durations are mathematical integers (nanoseconds).  The configured durations are
parameters: `7200 * duration.OneSecond` has type `Second` and does not convert to `NanoSecond`.
`sendQuickACK` and `sendFIN` do nothing in the code, so what is kept is that they were called.
-/

namespace Memar.Tcp

/-- Both net/tcp/stream-timing-keep_alive.go:11-18 and net/tcp/stream-timing-user_timeout.go:13-21 (which has
no interval of its own). -/
structure Checker where
  enable : Bool
  idle : Int
  interval : Int
  lastUse : Int
  nextCheck : Int
  retryCount : Nat
deriving DecidableEq, Repr

/-- What one check did. -/
structure Checked where
  next : Int
  state : Checker
  probed : Bool
  closed : Bool
deriving DecidableEq, Repr

/-- net/tcp/const.go:121 `CNF_KeepAlive_Probes` -/
def probes : Nat := 9

/-- net/tcp/stream-timing-keep_alive.go:21-30 `Init`: the keep-alive is off
(`CNF_KeepAlive_PerStream`, net/tcp/const.go:111) until `SetEnable`. -/
def kaInit (idle interval now : Int) (k : Checker) : Checker × Int :=
  ({ k with enable := false, idle := idle, interval := interval, nextCheck := now + idle }, idle)

/-- net/tcp/stream-timing-keep_alive.go:46-52 -/
def setEnable (k : Checker) (b : Bool) : Checker := { k with enable := b }

/-- net/tcp/stream-timing-keep_alive.go:61-118 `CheckInterval`; `used` is the stream's `lastUse`. -/
def kaCheck (st : Status) (used now : Int) (k : Checker) : Checked :=
  if !k.enable then ⟨-1, k, false, false⟩
  else
    let next := k.nextCheck - now
    if next > 0 then ⟨next, k, false, false⟩
    else if st ≠ .established then ⟨-1, k, false, false⟩
    else if k.lastUse ≠ used then
      ⟨k.idle, { k with lastUse := used, nextCheck := now + k.idle, retryCount := 0 }, false, false⟩
    else
      let next := if next < 0 then k.interval + next else next
      let k := { k with nextCheck := k.nextCheck + next }
      if k.retryCount ≤ probes then ⟨next, { k with retryCount := k.retryCount + 1 }, true, false⟩
      else ⟨next, k, false, true⟩

/-- net/tcp/stream-timing-user_timeout.go:42-87 `CheckInterval` -/
def utCheck (st : Status) (used now : Int) (k : Checker) : Checked :=
  if !k.enable then ⟨-1, k, false, false⟩
  else
    let next := k.nextCheck - now
    if next > 0 then ⟨next, k, false, false⟩
    else if st ≠ .established then ⟨-1, k, false, false⟩
    else if k.lastUse ≠ used then
      ⟨k.idle, { k with lastUse := used, nextCheck := now + k.idle, retryCount := 0 }, false, false⟩
    else
      let k := { k with nextCheck := k.nextCheck + next }
      if k.retryCount ≤ probes then ⟨next, { k with retryCount := k.retryCount + 1 }, true, false⟩
      else ⟨next, k, false, true⟩

/-- net/tcp/stream-timing-delayed_acknowledgment.go:11-17 -/
structure Delayed where
  enable : Bool
  interval : Int
  nextCheck : Int
deriving DecidableEq, Repr

/-- net/tcp/stream-timing-delayed_acknowledgment.go:20-26: the result `next` is not assigned. -/
def daInit (timeout now : Int) : Delayed × Int := (⟨true, timeout, now + timeout⟩, 0)

/-- net/tcp/stream-timing-delayed_acknowledgment.go:37-58 -/
def daCheck (now : Int) (d : Delayed) : Int :=
  if !d.enable then -1 else d.nextCheck - now

/-- `if nxt > 0 && nxt < next { next = nxt }` (net/tcp/stream-timing.go:31-33, 42-44, 94-96,
101-103) -/
def earlier (next nxt : Int) : Int := if nxt > 0 ∧ nxt < next then nxt else next

/-- The timers of a stream: net/tcp/stream-timing.go:12-19.  `armed` is every duration the stream's
timer was started or reset with. -/
structure Timing where
  ka : Checker
  de : Delayed
  armed : List Int
deriving DecidableEq, Repr

/-- net/tcp/stream-timing.go:22-52 `Init`; both mechanisms are compiled in (net/tcp/const.go:98, 109). -/
def timingInit (idle interval timeout now : Int) (t : Timing) : Timing :=
  let (ka, n1) := kaInit idle interval now t.ka
  let (de, n2) := daInit timeout now
  let next := earlier (earlier 0 n1) n2
  ⟨ka, de, if next > 0 then t.armed ++ [next] else t.armed⟩

/-- net/tcp/stream-timing.go:87-111 `TimerHandler` -/
def timerHandler (st : Status) (used now : Int) (t : Timing) : Timing :=
  let c := kaCheck st used now t.ka
  let next := earlier (earlier 0 c.next) (daCheck now t.de)
  ⟨c.state, t.de, if next > 0 then t.armed ++ [next] else t.armed⟩

end Memar.Tcp
