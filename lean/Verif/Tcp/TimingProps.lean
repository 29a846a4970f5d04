import Verif.Tcp.Timing

/-!
# C92, C93: keep-alive of a TCP stream
-/

namespace Memar.Tcp

/-! ## C92: one check -/

/-- C92: a keep-alive that is off, not yet due, or of a stream that is not established does nothing;
not yet due, it returns the time that is left. -/
theorem C92_nothing_to_do (st : Status) (used now : Int) (k : Checker) :
    (k.enable = false → kaCheck st used now k = ⟨-1, k, false, false⟩) ∧
    (k.enable = true → now < k.nextCheck →
      kaCheck st used now k = ⟨k.nextCheck - now, k, false, false⟩) ∧
    (k.enable = true → k.nextCheck ≤ now → st ≠ .established →
      kaCheck st used now k = ⟨-1, k, false, false⟩) := by
  refine ⟨fun h => ?_, fun h h1 => ?_, fun h h1 h2 => ?_⟩
  · simp [kaCheck, h]
  · simp only [kaCheck, h]
    rw [if_neg (by decide), if_pos (by omega)]
  · simp only [kaCheck, h]
    rw [if_neg (by decide), if_neg (by omega), if_pos h2]

/-- C92: a due check of a stream that was used since the last one starts a new idle period now and
forgets the probes. -/
theorem C92_used (used now : Int) (k : Checker) (he : k.enable = true) (hd : k.nextCheck ≤ now)
    (hu : k.lastUse ≠ used) :
    let r := kaCheck .established used now k
    r.next = k.idle ∧ r.state.nextCheck = now + k.idle ∧ r.state.lastUse = used ∧
      r.state.retryCount = 0 ∧ r.probed = false ∧ r.closed = false := by
  simp only [kaCheck, he]
  rw [if_neg (by decide), if_neg (by omega), if_neg (by simp), if_pos hu]
  simp

example := C92_used 9 100 ⟨true, 50, 10, 3, 98, 4⟩ rfl (by decide) (by decide)

/-- C92: a due check of an idle stream either sends a probe and counts it, or closes the stream. -/
theorem C92_idle (now : Int) (k : Checker) (he : k.enable = true) (hd : k.nextCheck ≤ now) :
    let r := kaCheck .established k.lastUse now k
    (r.probed = true ↔ k.retryCount ≤ 9) ∧ (r.closed = true ↔ 9 < k.retryCount) ∧
      r.state.retryCount = (if k.retryCount ≤ 9 then k.retryCount + 1 else k.retryCount) ∧
      r.state.lastUse = k.lastUse ∧ r.state.enable = true ∧ r.state.interval = k.interval ∧
      r.state.nextCheck = k.nextCheck + r.next ∧
      r.next = (if k.nextCheck < now then k.interval - (now - k.nextCheck) else 0) := by
  simp only [kaCheck, he, probes]
  rw [if_neg (by decide), if_neg (by omega), if_neg (by simp), if_neg (by simp)]
  by_cases h : k.retryCount ≤ 9
  · simp only [if_pos h]
    refine ⟨by simp [h], by simp; omega, trivial, trivial, trivial, trivial, trivial, ?_⟩
    split <;> split <;> omega
  · simp only [if_neg h]
    refine ⟨by simp; omega, by simp; omega, trivial, trivial, trivial, trivial, trivial, ?_⟩
    split <;> split <;> omega

example : kaCheck .established 3 100 ⟨true, 50, 10, 3, 98, 4⟩ =
    ⟨8, ⟨true, 50, 10, 3, 106, 5⟩, true, false⟩ := by decide

/-- Checks of a stream that stays idle, at the given times: what each did. -/
def idleChecks (k : Checker) : List Int → List Checked
  | [] => []
  | now :: nows =>
    let r := kaCheck .established k.lastUse now k
    r :: idleChecks r.state nows

/-- Every check in the list is due when it is made. -/
def AllDue (k : Checker) : List Int → Prop
  | [] => True
  | now :: nows => k.nextCheck ≤ now ∧ AllDue (kaCheck .established k.lastUse now k).state nows

theorem idleChecks_probed (k : Checker) (he : k.enable = true) (nows : List Int)
    (hd : AllDue k nows) :
    (idleChecks k nows).map (·.probed) =
      List.replicate (min nows.length (10 - k.retryCount)) true ++
        List.replicate (nows.length - (10 - k.retryCount)) false ∧
    (idleChecks k nows).map (·.closed) =
      List.replicate (min nows.length (10 - k.retryCount)) false ++
        List.replicate (nows.length - (10 - k.retryCount)) true := by
  induction nows generalizing k with
  | nil => simp [idleChecks]
  | cons now nows ih =>
    obtain ⟨h1, h2⟩ := hd
    obtain ⟨p1, p2, p3, p4, p5, _⟩ := C92_idle now k he h1
    obtain ⟨ih1, ih2⟩ := ih _ p5 h2
    simp only [idleChecks, List.map_cons, ih1, ih2, p3, List.length_cons]
    by_cases h : k.retryCount ≤ 9
    · rw [if_pos h, p1.2 h]
      have hc : (kaCheck .established k.lastUse now k).closed = false := by
        cases hx : (kaCheck .established k.lastUse now k).closed with
        | false => rfl
        | true => exact absurd (p2.1 hx) (by omega)
      rw [hc]
      have e1 : min (nows.length + 1) (10 - k.retryCount) =
        min nows.length (10 - (k.retryCount + 1)) + 1 := by omega
      have e2 : nows.length + 1 - (10 - k.retryCount) =
        nows.length - (10 - (k.retryCount + 1)) := by omega
      rw [e1, e2]
      simp [List.replicate_succ]
    · rw [if_neg h, p2.2 (by omega)]
      have hc : (kaCheck .established k.lastUse now k).probed = false := by
        cases hx : (kaCheck .established k.lastUse now k).probed with
        | false => rfl
        | true => exact absurd (p1.1 hx) h
      rw [hc]
      have e1 : 10 - k.retryCount = 0 := by omega
      simp [e1, List.replicate_succ]

/-- C210: a stream that stays idle, freshly checked at due times only, is probed for the first checks
and closed at each later one.  The documented limit (`CNF_KeepAlive_Probes`) is nine probes; the code
sends ten. -/
theorem C210_probe_limit_violated (k : Checker) (he : k.enable = true) (hr : k.retryCount = 0)
    (nows : List Int) (hd : AllDue k nows) (hl : 10 < nows.length) :
    ((idleChecks k nows).filter (·.probed)).length = 10 ∧
    ((idleChecks k nows).map (·.closed))[10]? = some true ∧
    ∀ i < 10, ((idleChecks k nows).map (·.closed))[i]? = some false := by
  obtain ⟨h1, h2⟩ := idleChecks_probed k he nows hd
  have hcount : ((idleChecks k nows).filter (·.probed)).length =
      (((idleChecks k nows).map (·.probed)).filter id).length := by
    rw [List.filter_map]; simp [Function.comp_def]
  rw [hcount, h1, h2, hr]
  refine ⟨?_, ?_, ?_⟩
  · rw [List.filter_append]; simp; omega
  · have hm : min nows.length (10 - 0) = 10 := by omega
    rw [hm, List.getElem?_append_right (by simp), List.getElem?_replicate]
    simp; omega
  · intro i hi
    rw [List.getElem?_append_left (by simp; omega), List.getElem?_replicate]
    simp; omega

/-- Eleven checks one interval and a nanosecond apart are all due. -/
example : AllDue ⟨true, 50, 10, 3, 0, 0⟩ [1, 11, 21, 31, 41, 51, 61, 71, 81, 91, 101] := by
  simp [AllDue, kaCheck, probes]

/-- C210 is violated: how late a check is, is taken off the time to the next one twice over: with the
check `late` nanoseconds late, the following one is due `interval` after the time this one was due,
less `late`.  Late by the interval or more, it is already due; and on time, the due time does not
move at all. -/
theorem C210_late_violated (now : Int) (k : Checker) (he : k.enable = true) :
    (k.nextCheck < now →
      (kaCheck .established k.lastUse now k).state.nextCheck + (now - k.nextCheck)
        = k.nextCheck + k.interval) ∧
    (k.nextCheck < now → k.interval ≤ now - k.nextCheck →
      (kaCheck .established k.lastUse now k).state.nextCheck ≤ k.nextCheck) ∧
    (now = k.nextCheck →
      (kaCheck .established k.lastUse now k).state.nextCheck = k.nextCheck ∧
      (kaCheck .established k.lastUse now k).next = 0) := by
  refine ⟨fun h => ?_, fun h h1 => ?_, fun h => ?_⟩
  · obtain ⟨_, _, _, _, _, _, h7, h8⟩ := C92_idle now k he (by omega)
    rw [h7, h8, if_pos h]; omega
  · obtain ⟨_, _, _, _, _, _, h7, h8⟩ := C92_idle now k he (by omega)
    rw [h7, h8, if_pos h]; omega
  · obtain ⟨_, _, _, _, _, _, h7, h8⟩ := C92_idle now k he (by omega)
    rw [h7, h8, if_neg (by omega)]; omega

example : let r := (kaCheck .established 3 130 ⟨true, 50, 10, 3, 98, 4⟩).state.nextCheck
    r + (130 - 98) = 98 + 10 ∧ r ≤ 98 :=
  ⟨(C210_late_violated 130 ⟨true, 50, 10, 3, 98, 4⟩ rfl).1 (by decide), (C210_late_violated 130 ⟨true, 50, 10, 3, 98, 4⟩ rfl).2.1 (by decide) (by decide)⟩

/-- C210 is violated for the user timeout: once a check is due, the due time never moves forward
while the stream is idle. -/
theorem C210_user_timeout_violated (now : Int) (k : Checker) (he : k.enable = true)
    (hd : k.nextCheck ≤ now) :
    (utCheck .established k.lastUse now k).state.nextCheck ≤ k.nextCheck ∧
    (utCheck .established k.lastUse now k).next ≤ 0 := by
  simp only [utCheck, he, probes]
  rw [if_neg (by decide), if_neg (by omega), if_neg (by simp), if_neg (by simp)]
  split <;> simp <;> omega

example := C210_user_timeout_violated 20 ⟨true, 7, 0, 5, 18, 9⟩ rfl (by decide)

/-- C92: the user timeout, one check: off, not yet due or not established, it does nothing; of a stream that was used, it starts a new idle
period; of an idle one, it counts, and closes the stream after ten. -/
theorem C92_user_timeout_check (st : Status) (used now : Int) (k : Checker) :
    (k.enable = false → utCheck st used now k = ⟨-1, k, false, false⟩) ∧
    (k.enable = true → now < k.nextCheck → utCheck st used now k = ⟨k.nextCheck - now, k, false, false⟩) ∧
    (k.enable = true → k.nextCheck ≤ now → st ≠ .established → utCheck st used now k = ⟨-1, k, false, false⟩) ∧
    (k.enable = true → k.nextCheck ≤ now → k.lastUse ≠ used → utCheck .established used now k =
      ⟨k.idle, ⟨true, k.idle, k.interval, used, now + k.idle, 0⟩, false, false⟩) ∧
    (k.enable = true → k.nextCheck ≤ now →
      let r := utCheck .established k.lastUse now k
      (r.probed = true ↔ k.retryCount ≤ 9) ∧ (r.closed = true ↔ 9 < k.retryCount) ∧
      r.state.retryCount = (if k.retryCount ≤ 9 then k.retryCount + 1 else k.retryCount) ∧ r.next = k.nextCheck - now ∧
      r.state.nextCheck = k.nextCheck - (now - k.nextCheck) ∧ r.state.lastUse = k.lastUse ∧ r.state.enable = true ∧ r.state.idle = k.idle) := by
  refine ⟨fun h => ?_, fun h h1 => ?_, fun h h1 h2 => ?_, fun h h1 h2 => ?_, fun h h1 => ?_⟩
  · simp [utCheck, h]
  · simp only [utCheck, h]
    rw [if_neg (by decide), if_pos (by omega)]
  · simp only [utCheck, h]
    rw [if_neg (by decide), if_neg (by omega), if_pos h2]
  · simp only [utCheck, h]
    rw [if_neg (by decide), if_neg (by omega), if_neg (by simp), if_pos h2]
  · simp only [utCheck, h, probes]
    rw [if_neg (by decide), if_neg (by omega), if_neg (by simp), if_neg (by simp)]
    split <;> simp <;> omega

example : utCheck .established 5 20 ⟨true, 7, 0, 5, 18, 9⟩ = ⟨-2, ⟨true, 7, 0, 5, 16, 10⟩, true, false⟩ := by decide

/-! ## C93: the stream's timer -/

/-- What happens to the timers of a stream: it is initialised, and its timer fires. -/
inductive TimerEvent
  | init (idle interval timeout now : Int)
  | fires (st : Status) (used now : Int)
  | enable (b : Bool)

def timerStep (t : Timing) : TimerEvent → Timing
  | .init i v o n => timingInit i v o n t
  | .fires st u n => timerHandler st u n t
  | .enable b => { t with ka := setEnable t.ka b }

theorem earlier_zero (n : Int) : earlier 0 n = 0 := by
  unfold earlier; split <;> omega

/-- C93 is violated: the stream's timer is never started, whatever the configuration, the clock and
what happens to the stream, so no keep-alive check is ever made.  (The smallest wait is looked for
starting from zero.) -/
theorem C93_never_armed_violated (t : Timing) (es : List TimerEvent) :
    (es.foldl timerStep t).armed = t.armed := by
  induction es generalizing t with
  | nil => rfl
  | cons e es ih =>
    rw [List.foldl_cons, ih]
    cases e with
    | init i v o n => simp [timerStep, timingInit, kaInit, daInit, earlier_zero]
    | fires st u n => simp [timerStep, timerHandler, earlier_zero]
    | enable b => rfl

/-- C93: a freshly initialised stream has its keep-alive off, due one idle time from now. -/
theorem C93_off_by_default (idle interval timeout now : Int) (t : Timing) :
    (timingInit idle interval timeout now t).ka.enable = false ∧
    (timingInit idle interval timeout now t).ka.nextCheck = now + idle ∧
    (timingInit idle interval timeout now t).de = ⟨true, timeout, now + timeout⟩ := by
  simp [timingInit, kaInit, daInit]

/-- C93: the delayed acknowledgment asks for no timer when it is set up, is out of the question when it is off, and otherwise asks for the
time that is left; of two waits that are both set, the shorter one is taken, and one that is not set is passed over.
Missing: that the timer is armed with the wait (refuted: `C93_never_armed_violated`). -/
theorem C93_delayed_ack_partial (timeout now : Int) (d : Delayed) (next nxt : Int) (hn : 0 < next) :
    (daInit timeout now).2 = 0 ∧ (d.enable = false → daCheck now d = -1) ∧ (d.enable = true → daCheck now d = d.nextCheck - now) ∧
    (0 < nxt → earlier next nxt = min next nxt) ∧ (nxt ≤ 0 → earlier next nxt = next) := by
  refine ⟨rfl, fun h => by simp [daCheck, h], fun h => by simp [daCheck, h], fun h => ?_, fun h => ?_⟩ <;>
    simp only [earlier] <;> split <;> omega

example : earlier 5 3 = 3 ∧ earlier 5 1 = 1 ∧ earlier 5 0 = 5 ∧ daCheck 7 ⟨true, 4, 9⟩ = 2 := by decide

end Memar.Tcp
