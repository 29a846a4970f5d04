import Verif.Net.SocketBits

/-!
# Properties of very long timeouts, C288
-/

namespace Memar.Net.Socket
open Memar

theorem fits_add (now d : U64) (h : Spec.fits now d) : (now + d).toInt = now.toInt + d.toInt := by
  obtain ⟨h1, h2⟩ := h
  have hd := BitVec.le_toInt d
  rw [BitVec.toInt_add]
  exact Int.bmod_eq_of_le (by simp only [Nat.reducePow, Nat.reduceSub] at *; omega) (by simp only [Nat.reducePow, Nat.reduceSub] at *; omega)

theorem slt_iff (a b : U64) : a.slt b = true ↔ a.toInt < b.toInt := by rw [BitVec.slt_iff_toInt_lt]
theorem sle_iff (a b : U64) : a.sle b = true ↔ a.toInt ≤ b.toInt := by rw [BitVec.sle_iff_toInt_le]

theorem fits_when (now d : U64) (h : Spec.fits now d) (hd : ¬ d.toInt < 1) : (Timer.when now d).toInt = now.toInt + d.toInt := by
  unfold Timer.when
  rw [if_neg (by rw [sle_iff]; simp only [BitVec.toInt_zero]; omega), if_neg (by rw [slt_iff, fits_add now d h, BitVec.toInt_zero]; obtain ⟨h1, _⟩ := h; omega), fits_add now d h]

/-- The timer with its moment read as a number. -/
def Timer64.numbers (t : Timer64) : Timer := ⟨t.callback, t.started, t.active, t.whn.toInt⟩

private theorem one : (1#64).toInt = 1 := by decide

theorem init_numbers (t : Timer64) : t.init.numbers = t.numbers.init := by
  unfold Timer64.init Timer.init Timer64.numbers
  by_cases h : t.callback = true <;> simp [h]

theorem start_numbers (t : Timer64) (now d : U64) (h : Spec.fits now d) : (t.start now d).1.numbers = (t.numbers.start now.toInt d.toInt).1 := by
  unfold Timer64.start Timer.start
  by_cases h1 : (!t.callback) = true
  · rw [if_pos h1, if_pos (show (!t.numbers.callback) = true from h1)]
  · rw [if_neg h1, if_neg (show ¬ (!t.numbers.callback) = true from h1)]
    by_cases h2 : d.toInt < 1
    · rw [if_pos (by rw [slt_iff, one]; exact h2), if_pos h2]
    · rw [if_neg (by rw [slt_iff, one]; exact h2), if_neg h2]
      by_cases h3 : t.started = true
      · rw [if_pos h3, if_pos (show t.numbers.started = true from h3)]
      · rw [if_neg h3, if_neg (show ¬ t.numbers.started = true from h3)]
        simp only [Timer64.numbers, fits_when now d h h2]

theorem reset_numbers (t : Timer64) (now d : U64) (h : Spec.fits now d) : (t.reset now d).1.numbers = (t.numbers.reset now.toInt d.toInt).1 := by
  unfold Timer64.reset Timer.reset
  by_cases h2 : d.toInt < 1
  · rw [if_pos (by rw [slt_iff, one]; exact h2), if_pos h2]
  · rw [if_neg (by rw [slt_iff, one]; exact h2), if_neg h2]
    by_cases h1 : (!t.callback) = true
    · rw [if_pos h1, if_pos (show (!t.numbers.callback) = true from h1)]
    · rw [if_neg h1, if_neg (show ¬ (!t.numbers.callback) = true from h1)]
      simp only [Timer64.numbers, fits_when now d h h2]

theorem toInt_zero_iff (a : U64) : a = 0#64 ↔ a.toInt = 0 := by
  constructor
  · rintro rfl; rfl
  · intro h; exact BitVec.eq_of_toInt_eq (by rw [h]; rfl)

theorem read_numbers (s : Sock64) (a b d : U64) (ha : Spec.fits a d) (hb : Spec.fits b d) :
    (s.setReadTimeoutI a b d).numbers = s.numbers.setReadTimeoutI a.toInt b.toInt d.toInt := by
  unfold Sock64.setReadTimeoutI Sock.setReadTimeoutI
  by_cases h0 : d.toInt < 0
  · rw [if_pos (by rw [slt_iff, BitVec.toInt_zero]; exact h0), if_pos h0]
    dsimp only
    by_cases h1 : s.writeDeadline = 0#64
    · rw [if_pos h1, if_pos (show s.numbers.writeDeadline = 0 from (toInt_zero_iff _).mp h1)]; rfl
    · rw [if_neg h1, if_neg (show ¬ s.numbers.writeDeadline = 0 from fun e => h1 ((toInt_zero_iff _).mpr e))]; rfl
  · rw [if_neg (by rw [slt_iff, BitVec.toInt_zero]; exact h0), if_neg h0]
    dsimp only
    by_cases h1 : a.toInt + d.toInt < s.timer.whn.toInt
    · rw [if_pos (by rw [slt_iff, fits_add a d ha]; exact h1), if_pos (show _ < s.numbers.timer.whn from h1)]
      have := reset_numbers s.timer b d hb
      unfold Timer64.numbers at this
      simp only [Sock64.numbers, fits_add a d ha, this]
    · rw [if_neg (by rw [slt_iff, fits_add a d ha]; exact h1), if_neg (show ¬ _ < s.numbers.timer.whn from h1)]
      simp only [Sock64.numbers, fits_add a d ha]

private theorem write_rest (s : Sock64) (a b d : U64) (ha : Spec.fits a d) (hb : Spec.fits b d) :
    (if (a + d).slt s.timer.whn then { s with writeDeadline := a + d, timer := (s.timer.reset b d).1 } else { s with writeDeadline := a + d }).numbers =
      (if a.toInt + d.toInt < s.numbers.timer.whn then { s.numbers with writeDeadline := a.toInt + d.toInt, timer := (s.numbers.timer.reset b.toInt d.toInt).1 }
        else { s.numbers with writeDeadline := a.toInt + d.toInt }) := by
  by_cases h1 : a.toInt + d.toInt < s.timer.whn.toInt
  · rw [if_pos (by rw [slt_iff, fits_add a d ha]; exact h1), if_pos (show _ < s.numbers.timer.whn from h1)]
    have := reset_numbers s.timer b d hb
    unfold Timer64.numbers at this
    simp only [Sock64.numbers, fits_add a d ha, this]
  · rw [if_neg (by rw [slt_iff, fits_add a d ha]; exact h1), if_neg (show ¬ _ < s.numbers.timer.whn from h1)]
    simp only [Sock64.numbers, fits_add a d ha]

theorem write_numbers (s : Sock64) (a b d : U64) (ha : Spec.fits a d) (hb : Spec.fits b d) :
    (s.setWriteTimeoutI a b d).numbers = s.numbers.setWriteTimeoutI a.toInt b.toInt d.toInt := by
  unfold Sock64.setWriteTimeoutI Sock.setWriteTimeoutI
  by_cases h0 : d.toInt < 0
  · have h0' : d.slt 0#64 = true := by rw [slt_iff, BitVec.toInt_zero]; exact h0
    by_cases h1 : s.readDeadline = 0#64
    · have h1' : s.numbers.readDeadline = 0 := (toInt_zero_iff _).mp h1
      simp only [if_pos h0, if_pos h0', if_pos h1, if_pos h1']
      exact write_rest { s with writeDeadline := 0#64, timer := s.timer.stop } a b d ha hb
    · have h1' : ¬ s.numbers.readDeadline = 0 := fun e => h1 ((toInt_zero_iff _).mpr e)
      simp only [if_pos h0, if_pos h0', if_neg h1, if_neg h1']
      exact write_rest { s with writeDeadline := 0#64 } a b d ha hb
  · have h0' : ¬ d.slt 0#64 = true := by rw [slt_iff, BitVec.toInt_zero]; exact h0
    simp only [if_neg h0, if_neg h0']
    exact write_rest s a b d ha hb

/-- **C288** the part that holds: while no moment leaves 64 bits, the socket goes through every history of calls as on a clock without bounds, so what is
said of it there (C263) holds of the code, and a timer that runs announces the same. Missing: longer durations, see
`C288_long_limit_violated`. -/
theorem C288_fits_partial : ∀ (calls : List Call64) (s : Sock64), (∀ c ∈ calls, Spec.callFits c) →
    (calls.foldl Sock64.call s).numbers = calls.foldl Sock.call s.numbers ∧
    ∀ now, ((calls.foldl Sock64.call s).fire now).map (fun r => r.2) =
      if (calls.foldl Sock.call s.numbers).timer.active ∧ (calls.foldl Sock.call s.numbers).timer.whn ≤ now.toInt then
        some (calls.foldl Sock.call s.numbers).handlerStatus else none := by
  have one : ∀ (s : Sock64) (c : Call64), Spec.callFits c → (s.call c).numbers = s.numbers.call c := by
    intro s c hc
    cases c with
    | init now d =>
      have := start_numbers s.timer.init now d hc
      rw [init_numbers] at this
      exact congrArg (fun t => Sock.mk t s.readDeadline.toInt s.writeDeadline.toInt s.status s.state) this
    | reinit now d =>
      have := reset_numbers s.timer now d hc
      exact congrArg (fun t => Sock.mk t s.readDeadline.toInt s.writeDeadline.toInt s.status s.state) this
    | readTimeout a b d => exact write_numbers s a b d hc.1 hc.2
    | writeTimeout a b d => exact read_numbers s a b d hc.1 hc.2
    | timeout a b c e d =>
      obtain ⟨h1, h2, h3, h4⟩ := hc
      show (((s.setWriteTimeoutI a b d).setReadTimeoutI c e d).numbers) = _
      rw [read_numbers _ c e d h3 h4, write_numbers s a b d h1 h2]
      rfl
  have all : ∀ (calls : List Call64) (s : Sock64), (∀ c ∈ calls, Spec.callFits c) →
      (calls.foldl Sock64.call s).numbers = calls.foldl Sock.call s.numbers := by
    intro calls
    induction calls with
    | nil => intro s _; rfl
    | cons c cs ih =>
      intro s h
      rw [List.foldl_cons, List.foldl_cons, ih _ (fun x hx => h x (List.mem_cons_of_mem _ hx)), one s c (h c (List.mem_cons_self ..))]
  intro calls s h
  refine ⟨all calls s h, fun now => ?_⟩
  rw [← all calls s h]
  generalize calls.foldl Sock64.call s = s'
  have hh : s'.handlerStatus = s'.numbers.handlerStatus := by
    unfold Sock.handlerStatus Sock64.handlerStatus Sock64.numbers
    simp only [sle_iff]
  unfold Sock64.fire
  by_cases h1 : s'.timer.active = true ∧ s'.timer.whn.sle now = true
  · rw [if_pos h1, if_pos (show s'.numbers.timer.active = true ∧ s'.numbers.timer.whn ≤ now.toInt from ⟨h1.1, (sle_iff _ _).mp h1.2⟩), ← hh]; rfl
  · rw [if_neg h1, if_neg (show ¬ (s'.numbers.timer.active = true ∧ s'.numbers.timer.whn ≤ now.toInt) from
      fun h => h1 ⟨h.1, (sle_iff _ _).mpr h.2⟩)]; rfl

/-- A socket with a timer due at 100 and a limit for reading at 100. -/
def demo64 : Sock64 := ⟨⟨true, true, true, 100#64⟩, 100#64, 0#64, .unset, some (1, [])⟩

example : Spec.callFits (.readTimeout 10#64 10#64 5000#64) ∧
    ([Call64.readTimeout 10#64 10#64 5000#64].foldl Sock64.call demo64).writeDeadline = 5010#64 := by
  refine ⟨⟨⟨by decide, by decide⟩, by decide, by decide⟩, by decide⟩

private theorem long_add (now d : U64) (h0 : 0 ≤ now.toInt) (h : 9223372036854775808 ≤ now.toInt + d.toInt) :
    (now + d).toInt = now.toInt + d.toInt - 18446744073709551616 ∧ (now + d).toInt < 0 ∧ ¬ d.toInt < 1 := by
  have h1 := BitVec.toInt_lt (x := now)
  have h2 := BitVec.toInt_lt (x := d)
  simp only [Nat.reduceSub, Nat.reducePow] at h1 h2
  have : (now + d).toInt = now.toInt + d.toInt - 18446744073709551616 := by
    rw [BitVec.toInt_add, Int.bmod_def]
    simp only [Nat.reducePow]
    split <;> omega
  refine ⟨this, by rw [this]; omega, by omega⟩

private theorem long_when (now d : U64) (h0 : 0 ≤ now.toInt) (h : 9223372036854775808 ≤ now.toInt + d.toInt) : Timer.when now d = Timer.maxWhen := by
  obtain ⟨_, h2, h3⟩ := long_add now d h0 h
  unfold Timer.when
  rw [if_neg (by rw [sle_iff, BitVec.toInt_zero]; omega), if_pos (by rw [slt_iff, BitVec.toInt_zero]; exact h2)]

/-- C288 violated: a limit so far ahead that its moment cannot be written counts as one in the distant past. `SetReadTimeout` (and `SetWriteTimeout`) of such a
duration, often meant as "no limit", takes the running timer away from the limit it waits for to the last moment of the clock: no limit of
either direction, however near, is announced before that. -/
theorem C288_long_limit_violated (s : Sock64) (a b d : U64) (hc : s.timer.callback = true) (hw : 0 ≤ s.timer.whn.toInt) (ha : 0 ≤ a.toInt) (hb : 0 ≤ b.toInt)
    (la : 9223372036854775808 ≤ a.toInt + d.toInt) (lb : 9223372036854775808 ≤ b.toInt + d.toInt) :
    (s.setReadTimeout a b d).writeDeadline.toInt < 0 ∧ (s.setWriteTimeout a b d).readDeadline.toInt < 0 ∧
    (s.setReadTimeout a b d).timer = ⟨true, true, true, Timer.maxWhen⟩ ∧ (s.setWriteTimeout a b d).timer = ⟨true, true, true, Timer.maxWhen⟩ ∧
    ∀ now : U64, now.toInt < 9223372036854775807 → (s.setReadTimeout a b d).fire now = none ∧ (s.setWriteTimeout a b d).fire now = none := by
  obtain ⟨_, h2, h3⟩ := long_add a d ha la
  have n0 : ¬ d.slt 0#64 = true := by rw [slt_iff, BitVec.toInt_zero]; omega
  have lt : (a + d).slt s.timer.whn = true := by rw [slt_iff]; omega
  have r : (s.timer.reset b d).1 = ⟨true, true, true, Timer.maxWhen⟩ := by
    unfold Timer64.reset
    rw [if_neg (by rw [slt_iff, one]; exact h3), if_neg (by simp [hc]), long_when b d hb lb, hc]
  have e1 : s.setReadTimeout a b d = { s with writeDeadline := a + d, timer := ⟨true, true, true, Timer.maxWhen⟩ } := by
    unfold Sock64.setReadTimeout Sock64.setWriteTimeoutI
    simp only [if_neg n0, if_pos lt, r]
  have e2 : s.setWriteTimeout a b d = { s with readDeadline := a + d, timer := ⟨true, true, true, Timer.maxWhen⟩ } := by
    unfold Sock64.setWriteTimeout Sock64.setReadTimeoutI
    simp only [if_neg n0, if_pos lt, r]
  rw [e1, e2]
  refine ⟨h2, h2, rfl, rfl, fun now hn => ?_⟩
  have : ¬ Timer.maxWhen.sle now = true := by
    rw [sle_iff, show Timer.maxWhen.toInt = 9223372036854775807 by decide]; omega
  unfold Sock64.fire
  rw [if_neg (fun h => this h.2), if_neg (fun h => this h.2)]
  exact ⟨rfl, rfl⟩

example : demo64.fire 100#64 ≠ none ∧ (demo64.setReadTimeout 10#64 10#64 0x7fffffffffffffff#64).fire 100#64 = none ∧
    (demo64.setReadTimeout 10#64 10#64 0x7fffffffffffffff#64).fire 0x7ffffffffffffff0#64 = none := by decide

/-- C288 violated: after a limit for writing that is too far ahead was given through `SetWriteTimeout`, every timer that runs, whatever limit it was for,
announces an expired read. -/
theorem C288_long_named_read_violated (s : Sock64) (a b d : U64) (t : Timer64) (ha : 0 ≤ a.toInt) (la : 9223372036854775808 ≤ a.toInt + d.toInt)
    (hw : 0 ≤ t.whn.toInt) : { s.setWriteTimeout a b d with timer := t }.handlerStatus = some .timeoutRead := by
  obtain ⟨_, h2, h3⟩ := long_add a d ha la
  have n0 : ¬ d.slt 0#64 = true := by rw [slt_iff, BitVec.toInt_zero]; omega
  have e : (s.setWriteTimeout a b d).readDeadline = a + d := by
    unfold Sock64.setWriteTimeout Sock64.setReadTimeoutI
    rw [if_neg n0]
    dsimp only
    split <;> rfl
  unfold Sock64.handlerStatus
  simp only [e]
  rw [if_pos (by rw [sle_iff]; omega)]

example : ({ demo64.setWriteTimeout 10#64 10#64 0x7fffffffffffffff#64 with timer := ⟨true, true, true, 50#64⟩ } : Sock64).handlerStatus = some .timeoutRead := by
  decide

end Memar.Net.Socket
