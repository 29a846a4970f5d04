import Verif.Timer.WheelCallback
import Verif.Timer.WheelProps

/-!
# Properties of a timing wheel whose callbacks add timers (C291)
-/

namespace Memar.Timer.Wheel

theorem put_eq {w w' : Wheel} {p : Int} {u : Nat} (h : put w p u = some w') :
    0 ≤ p ∧ p.toNat < w.wheel.length ∧ w' = { w with wheel := w.wheel.set p.toNat (w.wheel.getD p.toNat [] ++ [u]) } := by
  unfold put at h
  split at h
  · cases h
  · split at h
    · cases h
    · rename_i l hl
      cases h
      obtain ⟨hlt, hle⟩ := List.getElem?_eq_some_iff.mp hl
      refine ⟨by omega, hlt, ?_⟩
      simp [List.getD_eq_getElem?_getD, hl]

theorem put_some (w : Wheel) (k u : Nat) (h : k < w.wheel.length) :
    put w (k : Int) u = some { w with wheel := w.wheel.set k (w.wheel.getD k [] ++ [u]) } := by
  unfold put
  rw [if_neg (by omega)]
  simp [List.getD_eq_getElem?_getD, List.getElem?_eq_getElem h]

/-! ## Callbacks that add nothing -/

/-- `Res` of an answer of the model without callbacks. -/
def ofWheel (s : Option Nat) (live : List Nat) : Option Wheel → Res
  | none => .panic
  | some w => .ended ⟨w, s, live⟩

theorem again_silent (per : Nat → Int) (r : Run) (t s i : Nat) (hs : r.slot = some s) (hk : (r.w.wheel.getD s []).length ≤ i) :
    ∃ live, againC per r t = ofWheel (some s) live (checkAndAddAgain per r.w t) ∧ live.length = r.live.length ∧
      live.drop (i + 1) = r.live.drop (i + 1) ∧
      ∀ w', checkAndAddAgain per r.w t = some w' → (w'.wheel.getD s []).length ≤ i + 1 := by
  obtain ⟨w, sl, L⟩ := r
  simp only at hs hk ⊢
  subst hs
  unfold againC checkAndAddAgain
  split
  · simp only
    cases hp : addedPosition w (per t) with
    | none => exact ⟨L, rfl, rfl, rfl, fun _ h => nomatch h⟩
    | some p =>
      simp only [putC]
      cases hq : put w p t with
      | none => exact ⟨L, rfl, rfl, rfl, fun _ h => nomatch h⟩
      | some w' =>
        obtain ⟨h0, h1, h2⟩ := put_eq hq
        refine ⟨_, rfl, by split <;> simp, ?_, ?_⟩
        · split
          · rename_i he
            cases he
            rw [List.drop_set, if_pos (by omega)]
          · rfl
        · intro w2 hw
          cases hw
          subst h2
          simp only [List.getD_eq_getElem?_getD, List.getElem?_set] at hk ⊢
          split
          · rename_i he
            subst he
            simp only [Option.getD_some, List.length_append, List.length_singleton]
            omega
          · omega
  · exact ⟨L, rfl, rfl, rfl, fun w' h => by cases h; omega⟩

theorem loop_silent (per : Nat → Int) (depth n s : Nat) : ∀ (i : Nat) (r : Run), r.slot = some s → r.live.length = i + n →
    (r.w.wheel.getD s []).length ≤ i →
    ∃ live, loopC (fun _ _ => []) per (depth + 1) n i r = ofWheel (some s) live (runSlot per (r.live.drop i) r.w) := by
  induction n with
  | zero =>
    intro i r hs hl _
    rw [List.drop_eq_nil_of_le (by omega)]
    obtain ⟨w, sl, L⟩ := r
    simp only at hs
    subst hs
    exact ⟨L, rfl⟩
  | succ n ih =>
    intro i r hs hl hk
    have hlt : i < r.live.length := by omega
    obtain ⟨live, h1, h2, h3, h4⟩ := again_silent per { r with w := { r.w with fired := r.w.fired ++ [r.live[i]] } } r.live[i] s i hs hk
    rw [loopC, List.getElem?_eq_getElem hlt, List.drop_eq_getElem_cons hlt]
    simp only [handler, addAll, Res.andThen, runSlot]
    rw [h1]
    cases hc : checkAndAddAgain per { r.w with fired := r.w.fired ++ [r.live[i]] } r.live[i] with
    | none => exact ⟨[], rfl⟩
    | some w' =>
      simp only [ofWheel]
      obtain ⟨live', h⟩ := ih (i + 1) ⟨w', some s, live⟩ rfl (by simp only [h2]; omega) (h4 w' hc)
      refine ⟨live', ?_⟩
      simp only at h3
      rw [h]
      simp only [h3]
      rfl

/-- **C291**: when no callback adds a timer, that the slot shares its array with the timers to run changes nothing: the tick runs the
timers of the slot, each once and in order, as in the model in which the tick has a copy of them. -/
theorem C291_silent (per : Nat → Int) (depth : Nat) (w : Wheel) :
    (tick per w = none → tickC (fun _ _ => []) per (depth + 1) w = .panic) ∧
    (∀ w', tick per w = some w' → ∃ live, tickC (fun _ _ => []) per (depth + 1) w = .ended ⟨w', some w.pos, live⟩) := by
  unfold tick tickC
  cases hs : w.wheel[w.pos]? with
  | none => exact ⟨fun _ => rfl, fun _ h => nomatch h⟩
  | some ts =>
    obtain ⟨hlt, _⟩ := List.getElem?_eq_some_iff.mp hs
    obtain ⟨live, h⟩ := loop_silent per depth ts.length w.pos 0
      ⟨{ incrementTickPosition w with wheel := w.wheel.set w.pos [] }, some w.pos, ts⟩ rfl (by simp)
      (by simp [List.getD_eq_getElem?_getD, hlt])
    simp only [List.drop_zero] at h
    refine ⟨fun h' => ?_, fun w' h' => ⟨live, ?_⟩⟩
    · simp only at h' ⊢
      rw [h, h']; rfl
    · simp only at h' ⊢
      rw [h, h']; rfl

/-- A tick with two timers, one of which comes back to the same slot. -/
example : ∃ w', tick (fun _ => 10) ⟨2, [[], [1, 2]], 10, 1, []⟩ = some w' ∧ w'.fired = [1, 2] ∧ w'.wheel = [[], [1, 2]] := ⟨_, rfl, rfl, rfl⟩

/-! ## Callbacks that add timers -/

/-- From `r` to `r'` only timers of less than an interval were run, and the timers still to run are the same. -/
def Quiet (per : Nat → Int) (r r' : Run) (run : List Nat) : Prop :=
  r'.live = r.live ∧ r'.slot = r.slot ∧ r'.w.pos = r.w.pos ∧ r'.w.interval = r.w.interval ∧ r'.w.fired = r.w.fired ++ run ∧
  ∀ x ∈ run, per x < r.w.interval

/-- No timer is added to the slot that is being run. -/
def Away (per : Nat → Int) (r : Run) : Prop :=
  r.w.interval > 0 ∧ ∀ t, 0 ≤ per t → r.slot ≠ some ((per t).tdiv r.w.interval + r.w.pos).toNat

theorem away_quiet {per : Nat → Int} {r r' : Run} {f : List Nat} (h : Quiet per r r' f) (ha : Away per r) : Away per r' := by
  obtain ⟨_, h2, h3, h4, _⟩ := h
  unfold Away
  rw [h2, h3, h4]
  exact ha

theorem quiet_trans {per : Nat → Int} {a b c : Run} {f g : List Nat} (h : Quiet per a b f) (h' : Quiet per b c g) :
    Quiet per a c (f ++ g) := by
  obtain ⟨a1, a2, a3, a4, a5, a6⟩ := h
  obtain ⟨b1, b2, b3, b4, b5, b6⟩ := h'
  refine ⟨b1.trans a1, b2.trans a2, b3.trans a3, b4.trans a4, by rw [b5, a5, List.append_assoc], fun x hx => ?_⟩
  rcases List.mem_append.mp hx with h | h
  · exact a6 x h
  · rw [← a4]; exact b6 x h

theorem putC_quiet {per : Nat → Int} {r r' : Run} {t : Nat} (ha : Away per r) (h0 : 0 ≤ per t)
    (h : putC r ((per t).tdiv r.w.interval + r.w.pos) t = .ended r') : Quiet per r r' [] := by
  unfold putC at h
  split at h
  · cases h
  · rename_i w' hw
    obtain ⟨_, _, h3, h4, h5, _⟩ := put_spec hw
    rw [if_neg (ha.2 t h0)] at h
    cases h
    exact ⟨rfl, rfl, h3, h5, by simp [h4], fun _ hx => nomatch hx⟩

theorem againC_quiet {per : Nat → Int} {r r' : Run} {t : Nat} (ha : Away per r) (h : againC per r t = .ended r') : Quiet per r r' [] := by
  unfold againC at h
  split at h
  · unfold addedPosition at h
    rw [if_neg (by have := ha.1; omega)] at h
    exact putC_quiet ha (by omega) h
  · cases h
    exact ⟨rfl, rfl, rfl, rfl, by simp, fun _ hx => nomatch hx⟩

theorem andThen_ended {x : Res} {f : Run → Res} {r : Run} (h : x.andThen f = .ended r) : ∃ r', x = .ended r' ∧ f r' = .ended r := by
  cases x with
  | ended r' => exact ⟨r', rfl, h⟩
  | panic => cases h
  | running => cases h

theorem addAll_quiet {per : Nat → Int} {run : Run → Nat → Res} (hper : ∀ t, 0 ≤ per t)
    (hrun : ∀ r t r', Away per r → run r t = .ended r' → ∃ f, r'.w.fired = r.w.fired ++ t :: f ∧
      (per t < r.w.interval → Quiet per r r' (t :: f))) (ts : List Nat) :
    ∀ r r', Away per r → addAll per run ts r = .ended r' → ∃ f, Quiet per r r' f := by
  induction ts with
  | nil =>
    intro r r' _ h
    cases h
    exact ⟨[], rfl, rfl, rfl, rfl, by simp, fun _ hx => nomatch hx⟩
  | cons t ts ih =>
    intro r r' ha h
    obtain ⟨r1, h1, h2⟩ := andThen_ended h
    have hq : ∃ f, Quiet per r r1 f := by
      unfold addC addedPosition at h1
      rw [if_neg (by have := ha.1; omega)] at h1
      simp only at h1
      split at h1
      · cases h1
      · split at h1
        · rename_i hp
          obtain ⟨r2, h3, h4⟩ := andThen_ended h1
          obtain ⟨f, _, hf⟩ := hrun r t r2 ha h3
          have hsmall : per t < r.w.interval := by
            have h0 : (per t).tdiv r.w.interval = 0 := by omega
            have hi := ha.1
            rw [Int.tdiv_eq_ediv_of_nonneg (hper t)] at h0
            have := Int.lt_ediv_add_one_mul_self (per t) hi
            rw [h0] at this
            omega
          have hq := hf hsmall
          exact ⟨_, quiet_trans hq (againC_quiet (away_quiet hq ha) h4)⟩
        · exact ⟨[], putC_quiet ha (hper t) h1⟩
    obtain ⟨f, hf⟩ := hq
    obtain ⟨g, hg⟩ := ih r1 r' (away_quiet hf ha) h2
    exact ⟨f ++ g, quiet_trans hf hg⟩

theorem handler_quiet {cb : List Nat → Nat → List Nat} {per : Nat → Int} (hper : ∀ t, 0 ≤ per t) (depth : Nat) :
    ∀ r t r', Away per r → handler cb per depth r t = .ended r' →
      ∃ f, Quiet per { r with w := { r.w with fired := r.w.fired ++ [t] } } r' f := by
  induction depth with
  | zero => intro r t r' _ h; cases h
  | succ depth ih =>
    intro r t r' ha h
    refine addAll_quiet hper (fun r1 t1 r2 ha1 h1 => ?_) _ { r with w := { r.w with fired := r.w.fired ++ [t] } } r' ha h
    obtain ⟨f, q1, q2, q3, q4, q5, q6⟩ := ih r1 t1 r2 ha1 h1
    refine ⟨f, by rw [q5]; simp, fun hs => ⟨q1, q2, q3, q4, by rw [q5]; simp, fun x hx => ?_⟩⟩
    rcases List.mem_cons.mp hx with e | e
    · rw [e]; exact hs
    · exact q6 x e

theorem loop_quiet {cb : List Nat → Nat → List Nat} {per : Nat → Int} (hper : ∀ t, 0 ≤ per t) (depth n : Nat) :
    ∀ i r r', Away per r → r.live.length = i + n → loopC cb per depth n i r = .ended r' →
      ∃ f, r'.w.fired = r.w.fired ++ f ∧ (r.live.drop i).Sublist f ∧
        f.filter (fun t => decide (r.w.interval ≤ per t)) = (r.live.drop i).filter (fun t => decide (r.w.interval ≤ per t)) := by
  induction n with
  | zero =>
    intro i r r' _ hl h
    cases h
    rw [List.drop_eq_nil_of_le (by omega)]
    exact ⟨[], by simp, List.Sublist.refl _, rfl⟩
  | succ n ih =>
    intro i r r' ha hl h
    have hlt : i < r.live.length := by omega
    rw [loopC, List.getElem?_eq_getElem hlt] at h
    obtain ⟨r2, h1, h2⟩ := andThen_ended h
    obtain ⟨r1, h3, h4⟩ := andThen_ended h1
    obtain ⟨f, hf⟩ := handler_quiet hper depth r _ r1 ha h3
    have ha1 := away_quiet hf (show Away per { r with w := { r.w with fired := r.w.fired ++ [r.live[i]] } } from ha)
    have hq := quiet_trans hf (againC_quiet ha1 h4)
    obtain ⟨q1, q2, q3, q4, q5, q6⟩ := hq
    simp only at q1 q4 q5 q6
    obtain ⟨g, g1, g2, g3⟩ := ih (i + 1) r2 r' (away_quiet (againC_quiet ha1 h4) ha1) (by rw [q1]; omega) h2
    refine ⟨r.live[i] :: (f ++ [] ++ g), by rw [g1, q5]; simp, ?_, ?_⟩
    · rw [List.drop_eq_getElem_cons hlt]
      rw [q1] at g2
      exact (g2.trans (List.sublist_append_right _ _)).cons_cons _
    · rw [q1, q4] at g3
      have hz : (f ++ []).filter (fun t => decide (r.w.interval ≤ per t)) = [] := by
        rw [List.filter_eq_nil_iff]
        intro x hx
        have := q6 x hx
        simp only [decide_eq_true_eq]
        omega
      rw [List.drop_eq_getElem_cons hlt, List.filter_cons, List.filter_cons, List.filter_append, hz, g3]
      rfl

/-- **C291**, the part that holds: whatever timers the callbacks add, a tick that ends has run every timer of its slot, in order, and
beside them only timers shorter than one interval, which run when they are added.
Missing: the last slot of the wheel when a timer waits for one slot less than a turn (refuted: `C291_lost_violated`), and that a tick
ends (refuted: `C291_endless_violated`). -/
theorem C291_all_run_partial (cb : List Nat → Nat → List Nat) (per : Nat → Int) (depth : Nat) (w : Wheel) (r : Run) (ts : List Nat)
    (hi : w.interval > 0) (hper : ∀ t, 0 ≤ per t) (hs : w.wheel[w.pos]? = some ts)
    (hlast : w.pos + 1 < w.wheel.length ∨ ∀ t, (per t) / w.interval ≠ (w.wheel.length : Int) - 1)
    (h : tickC cb per depth w = .ended r) :
    ∃ f, r.w.fired = w.fired ++ f ∧ ts.Sublist f ∧
      f.filter (fun t => decide (w.interval ≤ per t)) = ts.filter (fun t => decide (w.interval ≤ per t)) := by
  obtain ⟨hlt, _⟩ := List.getElem?_eq_some_iff.mp hs
  unfold tickC at h
  rw [hs] at h
  have hint : (incrementTickPosition w).interval = w.interval := by unfold incrementTickPosition; split <;> rfl
  have hfi : (incrementTickPosition w).fired = w.fired := by unfold incrementTickPosition; split <;> rfl
  have := loop_quiet hper depth ts.length 0 ⟨{ incrementTickPosition w with wheel := w.wheel.set w.pos [] }, some w.pos, ts⟩ r
    ⟨by simp only [hint]; exact hi, fun t _ => ?_⟩ (by simp) h
  · simpa [hint, hfi] using this
  · simp only [hint, ne_eq, Option.some.injEq]
    have hd := Int.ediv_nonneg (hper t) (by omega : 0 ≤ w.interval)
    rw [Int.tdiv_eq_ediv_of_nonneg (hper t)]
    by_cases hl : w.wheel.length = w.pos + 1
    · have : (incrementTickPosition w).pos = 0 := by unfold incrementTickPosition; rw [if_pos (by omega)]
      rw [this]
      rcases hlast with h' | h'
      · omega
      · have := h' t
        omega
    · have : (incrementTickPosition w).pos = w.pos + 1 := by unfold incrementTickPosition; rw [if_neg (by omega)]
      rw [this]
      omega

/-- The callback of the timer 1 adds a timer of half an interval, which runs at once, and one of two intervals, which waits. -/
example : ∃ r, tickC (fun _ t => if t = 1 then [3, 4] else []) (fun t => if t = 3 then 5 else 20) 3 ⟨5, [[], [1, 2], [], [], []], 10, 1, []⟩ =
    .ended r ∧ r.w.fired = [1, 3, 2] ∧ r.w.wheel = [[], [], [3], [], [4, 1, 2]] ∧ (1 : Nat) + 1 < 5 := ⟨_, rfl, rfl, rfl, by decide⟩

theorem tickC_last (w : Wheel) (ts : List Nat) (cb : List Nat → Nat → List Nat) (per : Nat → Int) (depth : Nat)
    (hlast : w.pos + 1 = w.wheel.length) (hslot : w.wheel[w.pos]? = some ts) :
    tickC cb per depth w = loopC cb per depth ts.length 0 ⟨{ w with pos := 0, wheel := w.wheel.set w.pos [] }, some w.pos, ts⟩ := by
  unfold tickC
  rw [hslot]
  simp only [incrementTickPosition]
  rw [if_pos (by omega)]

/-- A timer that waits `k` slots, added at the first position. -/
theorem putC_at (r : Run) (k u : Nat) (h : k < r.w.wheel.length) :
    putC r (k : Int) u = .ended ⟨{ r.w with wheel := r.w.wheel.set k (r.w.wheel.getD k [] ++ [u]) }, r.slot,
      if r.slot = some k then r.live.set (r.w.wheel.getD k []).length u else r.live⟩ := by
  unfold putC
  rw [put_some _ _ _ h]
  simp

theorem addC_at (per : Nat → Int) (run : Run → Nat → Res) (r : Run) (k u : Nat) (hi : r.w.interval > 0) (hp : r.w.pos = 0)
    (hper : (per u).tdiv r.w.interval = k) (hk : 0 < k) (hk2 : k < r.w.wheel.length) (hsize : r.w.wheelSize = r.w.wheel.length) :
    addC per run r u = putC r (k : Int) u := by
  unfold addC addedPosition
  rw [if_neg (by omega), hper, hp]
  simp only
  rw [if_neg (by omega), if_neg (by omega)]
  simp

theorem againC_at (per : Nat → Int) (r : Run) (k u : Nat) (hi : r.w.interval > 0) (hp : r.w.pos = 0) (h0 : per u > 0)
    (hper : (per u).tdiv r.w.interval = k) : againC per r u = putC r (k : Int) u := by
  unfold againC addedPosition
  rw [if_pos h0, if_neg (by omega), hper, hp]
  simp

/-- **C291** violated: a tick runs every timer of its slot. Two timers `a` and `b` are in the last slot of the wheel, and the callback of
`a` adds two timers that wait one slot less than a turn. They are written over the timers the tick has still to run: `b` is not run, is
in no slot any more and so never runs again, and `d`, just added, runs at once in its place. -/
theorem C291_lost_violated (cb : List Nat → Nat → List Nat) (per : Nat → Int) (depth : Nat) (w : Wheel) (a b c d m : Nat)
    (hi : w.interval > 0) (hsize : w.wheelSize = w.wheel.length) (hlast : w.pos + 1 = w.wheel.length) (h2 : 2 ≤ w.wheel.length)
    (hslot : w.wheel[w.pos]? = some [a, b]) (hcb : cb (w.fired ++ [a]) a = [c, d]) (hcd : cb (w.fired ++ [a, d]) d = [])
    (ha0 : per a > 0) (ham : (per a).tdiv w.interval = m) (ham2 : m < w.wheel.length)
    (hc : (per c).tdiv w.interval = w.pos) (hd : (per d).tdiv w.interval = w.pos)
    (hb : b ≠ a ∧ b ≠ c ∧ b ≠ d) (hbw : ∀ j, j ≠ w.pos → b ∉ w.wheel.getD j []) :
    ∃ r, tickC cb per (depth + 1) w = .ended r ∧ r.w.fired = w.fired ++ [a, d] ∧ ∀ j, b ∉ r.w.wheel.getD j [] := by
  have hd0 : per d > 0 := by
    by_cases h : 0 < per d
    · exact h
    · have := Int.tdiv_nonneg (a := -per d) (b := w.interval) (by omega) (by omega)
      rw [Int.neg_tdiv] at this
      omega
  rw [tickC_last w _ cb per _ hlast hslot]
  have hpl : w.pos < w.wheel.length := by omega
  have e0 : (w.wheel.set w.pos []).getD w.pos [] = [] := by simp [List.getD_eq_getElem?_getD, hpl]
  have e1 : ((w.wheel.set w.pos []).set w.pos [c]).getD w.pos [] = [c] := by simp [List.getD_eq_getElem?_getD, hpl]
  simp only [List.length_cons, List.length_nil, loopC, List.getElem?_cons_zero, handler, hcb, addAll]
  rw [addC_at per _ _ w.pos c (by simpa using hi) rfl hc (by omega) (by simpa using hpl) (by simpa using hsize),
    putC_at _ _ _ (by simpa using hpl)]
  simp only [Res.andThen]
  rw [addC_at per _ _ w.pos d (by simpa using hi) rfl hd (by omega) (by simpa using hpl) (by simpa using hsize),
    putC_at _ _ _ (by simpa using hpl)]
  simp only [Res.andThen]
  rw [againC_at per _ m a (by simpa using hi) rfl ha0 ham, putC_at _ _ _ (by simpa using ham2)]
  simp only [e0, e1, Res.andThen, List.nil_append, List.length_nil, List.length_cons, if_true, List.set_cons_zero, List.set_cons_succ]
  rw [List.set_set, List.set_set, show [c] ++ [d] = [c, d] from rfl]
  have hl : (if some w.pos = some m then [c, d].set ((w.wheel.set w.pos [c, d]).getD m []).length a else [c, d]) = [c, d] := by
    split
    · rename_i h
      cases h
      simp [List.getD_eq_getElem?_getD, hpl]
    · rfl
  rw [hl]
  simp only [Nat.zero_add, List.getElem?_cons_succ, List.getElem?_cons_zero, List.append_assoc, List.cons_append, List.nil_append, hcd, addAll]
  rw [againC_at per _ w.pos d (by simpa using hi) rfl hd0 hd, putC_at _ _ _ (by simpa using hpl)]
  refine ⟨_, rfl, rfl, fun j => ?_⟩
  simp only [List.getD_eq_getElem?_getD, List.getElem?_set, List.length_set]
  have hbj := hbw j
  rw [List.getD_eq_getElem?_getD] at hbj
  have hbm := hbw m
  rw [List.getD_eq_getElem?_getD] at hbm
  have e1 := hb.1
  have e2 := hb.2.1
  have e3 := hb.2.2
  by_cases h1 : w.pos = j
  · subst h1
    by_cases h2 : m = w.pos
    · subst h2; simp [hpl, e1, e2, e3]
    · simp [hpl, e2, e3, h2]
  · by_cases h2 : m = j
    · subst h2
      have := hbm (fun e => h1 e.symm)
      rw [List.getElem?_eq_getElem ham2] at this
      simpa [h1, ham2, e1] using this
    · simp [h1, h2, hbj (fun e => h1 e.symm)]

/-- A wheel of four slots at its last one, with the timers 1 and 2 in it: the timers 3 and 4 take the place of 2. -/
example := C291_lost_violated (fun h t => if t = 1 ∧ h.length = 1 then [3, 4] else []) (fun t => if t ≤ 2 then 10 else 30) 5
  ⟨4, [[], [], [], [1, 2]], 10, 3, []⟩ 1 2 3 4 1 (by decide) (by decide) (by decide) (by decide) rfl rfl rfl (by decide) (by decide)
  (by decide) (by decide) (by decide) (by decide) (fun j hj => by
    rcases j with _ | _ | _ | _ | j
    · decide
    · decide
    · decide
    · exact absurd rfl hj
    · simp)

/-- **C291** violated: a tick ends. A timer shorter than one interval runs when it is added, so that a callback that adds its own timer
again never returns: no number of callbacks inside callbacks is enough. -/
theorem C291_endless_violated (cb : List Nat → Nat → List Nat) (per : Nat → Int) (t : Nat) (hper : 0 ≤ per t) (hcb : ∀ h, cb h t = [t])
    (r : Run) (hsmall : per t < r.w.interval) (hpos : (r.w.pos : Int) ≤ r.w.wheelSize) (depth : Nat) :
    handler cb per depth r t = .running ∧ addC per (handler cb per depth) r t = .running := by
  have key : ∀ depth (r : Run), per t < r.w.interval → (r.w.pos : Int) ≤ r.w.wheelSize → handler cb per depth r t = .running := by
    intro depth
    induction depth with
    | zero => intro r _ _; rfl
    | succ depth ih =>
      intro r h1 h2
      rw [handler, hcb, addAll]
      unfold addC addedPosition
      simp only
      rw [if_neg (by omega), Int.tdiv_eq_zero_of_lt hper h1]
      simp only
      rw [if_neg (by omega), if_pos (by omega), ih { r with w := { r.w with fired := r.w.fired ++ [t] } } h1 h2]
      rfl
  refine ⟨key depth r hsmall hpos, ?_⟩
  unfold addC addedPosition
  rw [if_neg (by omega), Int.tdiv_eq_zero_of_lt hper hsmall]
  simp only
  rw [if_neg (by omega), if_pos (by omega), key depth r hsmall hpos]
  rfl

/-- A timer of half an interval that adds itself again. -/
example := C291_endless_violated (fun _ t => [t]) (fun _ => 5) 7 (by decide) (fun _ => rfl) ⟨⟨4, [[], [], [], []], 10, 2, []⟩, none, []⟩
  (by decide) (by decide) 9

end Memar.Timer.Wheel
