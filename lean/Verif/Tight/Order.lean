import Verif.Registry.Lemmas
import Verif.Www.Props
import Verif.Timer.TimingProps
import Verif.Pool.Props

/-!
# C62, C183, C208: a timer in front that is not due, closing a pool in the middle of a `Get`, and the order of modules that are imported more than once
-/

namespace Memar.Timer.Queue
open Memar.Timer

/-- **C62** violated in every reachable queue of armed timers whose first one is not due yet, as a ticking timer that
kept its place at the front is not: the check runs no timer at all, however late the others are, and changes nothing. -/
theorem C62_front_blocks_violated (tg : Tg) (h : Reachable tg) (b : Bucket Nat) (hb : tg.heap[0]? = some b)
    (hall : ∀ c ∈ tg.heap, (tg.tm c.timer).status = .waiting) (w now : Int) (hw : (armed tg).due b.timer = some w)
    (h0 : 0 ≤ now) (hlate : now < w) (hm : tg.modifiedEarliest = 0 ∨ now < tg.modifiedEarliest) (fuel : Nat) :
    ∃ nw, checkTimers fuel tg now = .ok (tg, nw, false) := by
  have hmem : b ∈ tg.heap := List.mem_of_getElem? hb
  have hs := hall b hmem
  have hwhen : (tg.tm b.timer).when = w := by
    simpa [armed_eq, dueOf, hs] using hw
  obtain ⟨_, _, _, _, hdel, _⟩ := C63_bookkeeping tg h
  have hd0 : tg.deletedCount = 0 := by
    rw [hdel]
    have : tg.heap.filter (fun b => decide ((tg.tm b.timer).status = .deleted)) = [] := by
      rw [List.filter_eq_nil_iff]
      intro c hc
      simp [hall c hc]
    simp [this]
  have hlen : tg.heap.length > 0 := List.length_pos_of_mem hmem
  have hadj : adjustTimers tg now = .ok tg := by
    unfold adjustTimers
    rw [if_pos (by omega)]
  have hrt : runTimer tg.heap.length tg now = .ok (tg, w) := by
    unfold runTimer
    rw [hb]
    simp only [hs, hwhen]
    rw [if_pos (by omega)]
  have hra : runAll fuel tg now = .ok (tg, w, false) := by
    unfold runAll
    rw [if_pos hlen, hrt]
    simp only
    rw [if_pos (by omega), if_pos (by omega)]
  unfold checkTimers
  split
  · exact ⟨_, rfl⟩
  · split
    · exact ⟨_, rfl⟩
    · rw [hadj]
      simp only [Out.bind, hra]
      rw [if_neg (by rw [hd0]; omega)]
      exact ⟨_, rfl⟩

/-- After a ticking timer has run for the first time, the queue is such a one: timer 2 is due at 5, and at 6 it does
not run. -/
example : ∃ tg, runCalls [.tick 1 1 10 0, .start 2 5 0, .check 9 1] Tg.init = .ok tg ∧
    (decide (tg.heap.map (·.timer) = [1, 2]) && decide ((tg.tm 1).status = .waiting) &&
      decide ((tg.tm 2).status = .waiting) && decide ((armed tg).due 1 = some 11) && decide ((armed tg).due 2 = some 5) &&
      decide (tg.modifiedEarliest = 0)) = true :=
  ends_elim (by decide +kernel)

end Memar.Timer.Queue

namespace Memar.Www
open Memar

/-- The last occurrences decide: `x` occurs, and some `y` stands behind every `x`. -/
def LastBehind (l : List Nat) (x y : Nat) : Prop := ∃ a b, l = a ++ y :: b ∧ x ∈ a ∧ x ∉ b

/-- `x` stands before `y`. -/
def StandsBefore (l : List Nat) (x y : Nat) : Prop := ∃ p q r, l = p ++ x :: (q ++ y :: r)

theorem add_inlined (data : Nat → Bytes) (c : Combined) (f : Nat) :
    (c.add data f).inlined = if f ∈ c.inlined then c.inlined else c.inlined ++ [f] := by
  unfold Combined.add
  split <;> rfl

theorem standsBefore_mem {l : List Nat} {x y : Nat} (h : StandsBefore l x y) : x ∈ l ∧ y ∈ l := by
  obtain ⟨p, q, r, rfl⟩ := h
  simp

/-- The files added for a list, from first to last: no file twice, those of the list, and `y` before `x` if and only if
`y` occurs before the first `x`. -/
theorem fold_inlined (data : Nat → Bytes) (l : List Nat) (c0 : Bytes) :
    let r := (l.foldl (fun (c : Combined) (f : Nat) => c.add data f) { inlined := [], out := c0 }).inlined
    r.Nodup ∧ (∀ z, z ∈ r ↔ z ∈ l) ∧
    ∀ x y, x ≠ y → (StandsBefore r y x ↔ ∃ a b, l = a ++ y :: b ∧ x ∉ a ∧ x ∈ b) := by
  induction l using Memar.Registry.history_induction with
  | nil =>
    refine ⟨by simp, by simp, fun x y _ => ⟨?_, ?_⟩⟩
    · rintro ⟨p, q, r, h⟩; simp at h
    · rintro ⟨a, b, h, _⟩; simp at h
  | concat l f ih =>
    obtain ⟨h1, h2, h3⟩ := ih
    simp only [List.foldl_append, List.foldl_cons, List.foldl_nil, add_inlined]
    generalize hr : (l.foldl (fun (c : Combined) (f : Nat) => c.add data f) { inlined := [], out := c0 }).inlined = r at *
    by_cases hf : f ∈ r
    · simp only [if_pos hf]
      refine ⟨h1, fun z => ?_, fun x y hxy => ?_⟩
      · rw [h2 z]
        simp only [List.mem_append, List.mem_singleton]
        exact ⟨.inl, fun h => h.elim id fun e => e ▸ (h2 f).1 hf⟩
      · rw [h3 x y hxy]
        constructor
        · rintro ⟨a, b, rfl, ha, hb⟩
          exact ⟨a, b ++ [f], by simp, ha, by simp [hb]⟩
        · rintro ⟨a, b, e, ha, hb⟩
          rcases List.eq_nil_or_concat b with rfl | ⟨b', z, rfl⟩
          · simp at hb
          · have e' : l ++ [f] = (a ++ y :: b') ++ [z] := by rw [e]; simp
            obtain ⟨e1, e2⟩ := List.append_inj' e' rfl
            simp only [List.cons.injEq, and_true] at e2
            subst e1; subst e2
            by_cases hxb : x ∈ b'
            · exact ⟨a, b', rfl, ha, hxb⟩
            · have hxf : x = f := by
                simpa [hxb] using hb
              subst hxf
              have := (h2 x).1 hf
              simp only [List.mem_append, List.mem_cons] at this
              rcases this with h | h | h
              · exact absurd h ha
              · exact absurd h hxy
              · exact absurd h hxb
    · simp only [if_neg hf]
      have hfl : f ∉ l := fun h => hf ((h2 f).2 h)
      refine ⟨?_, fun z => ?_, fun x y hxy => ?_⟩
      · rw [List.nodup_append]
        exact ⟨h1, by simp, fun a ha b hb => by simp only [List.mem_singleton] at hb; subst hb; exact fun e => hf (e ▸ ha)⟩
      · simp only [List.mem_append, h2 z]
      · constructor
        · rintro ⟨p, q, t, e⟩
          rcases List.eq_nil_or_concat t with rfl | ⟨t', z, rfl⟩
          · have e' : r ++ [f] = (p ++ y :: q) ++ [x] := by rw [e]; simp
            obtain ⟨e1, e2⟩ := List.append_inj' e' rfl
            simp only [List.cons.injEq, and_true] at e2
            subst e2
            have hy : y ∈ l := (h2 y).1 (by rw [e1]; simp)
            obtain ⟨a, b, rfl⟩ := List.append_of_mem hy
            simp only [List.mem_append, List.mem_cons, not_or] at hfl
            exact ⟨a, b ++ [f], by simp, hfl.1, by simp⟩
          · have e' : r ++ [f] = (p ++ y :: (q ++ x :: t')) ++ [z] := by rw [e]; simp
            obtain ⟨e1, _⟩ := List.append_inj' e' rfl
            obtain ⟨a, b, rfl, ha, hb⟩ := (h3 x y hxy).1 ⟨p, q, t', e1⟩
            exact ⟨a, b ++ [f], by simp, ha, by simp [hb]⟩
        · rintro ⟨a, b, e, ha, hb⟩
          rcases List.eq_nil_or_concat b with rfl | ⟨b', z, rfl⟩
          · simp at hb
          · have e' : l ++ [f] = (a ++ y :: b') ++ [z] := by rw [e]; simp
            obtain ⟨e1, e2⟩ := List.append_inj' e' rfl
            simp only [List.cons.injEq, and_true] at e2
            subst e2
            by_cases hxb : x ∈ b'
            · obtain ⟨p, q, t, e3⟩ := (h3 x y hxy).2 ⟨a, b', e1, ha, hxb⟩
              exact ⟨p, q, t ++ [f], by rw [e3]; simp⟩
            · have hxf : x = f := by
                simpa [hxb] using hb
              subst hxf
              have hy : y ∈ r := (h2 y).2 (by rw [e1]; simp)
              obtain ⟨p, q, rfl⟩ := List.append_of_mem hy
              exact ⟨p, q, [], by simp⟩

/-- **C208** violated exactly for the modules that are collected again behind what they import: for every list of
collected modules, each is in the script once, and a module stands behind another one if and only if, in the list, the
last place of the other one is behind the last place of the module. So a module that is imported again after its imports
were collected stands before them. -/
theorem C208_order_exact_violated (data : Nat → Bytes) (l : List Nat) :
    (combineAll data l).inlined.Nodup ∧ (∀ z, z ∈ (combineAll data l).inlined ↔ z ∈ l) ∧
    ∀ x y, x ≠ y → (StandsBefore (combineAll data l).inlined y x ↔ LastBehind l x y) := by
  obtain ⟨h1, h2, h3⟩ := fold_inlined data l.reverse (bs "\n")
  refine ⟨h1, fun z => by rw [combineAll, h2 z, List.mem_reverse], fun x y hxy => ?_⟩
  rw [combineAll, h3 x y hxy]
  constructor
  · rintro ⟨a, b, e, ha, hb⟩
    refine ⟨b.reverse, a.reverse, ?_, by simpa using hb, by simpa using ha⟩
    rw [← List.reverse_reverse l, e]; simp
  · rintro ⟨a, b, rfl, ha, hb⟩
    exact ⟨b.reverse, a.reverse, by simp, by simpa using hb, by simpa using ha⟩

example : LastBehind (collect diamond 5 0) 3 1 ∧ 3 ∈ diamond 1 :=
  ⟨⟨[0, 1, 2, 3], [], by decide +kernel, by decide, by decide⟩, by decide⟩

end Memar.Www

namespace Memar.Pool
open Memar

/-- **C183** violated in every state of a running pool where the next item that would be handed out is an idle one: a
`Get` that has looked at the state of the pool and is then overtaken by `Close` receives the item although `Close` has
closed it, together with all other idle items. -/
theorem C183_close_race_any_violated {w : World} {i : Nat} {u : User} {x : Nat} (hrun : w.p.state = .running)
    (hu : w.users[i]? = some u) (hpc : u.pc = .out) (hcl : w.closer = .notYet) (hhot : w.p.hotItem = none)
    (hidle : w.p.idleItems.getLast? = some (some x)) :
    (run w ([.get i] ++ closeCall ++ [.step i])).log =
      w.log ++ (w.p.idleItems.filter Option.isSome).map Event.closed ++ [.got i (some x)] ∧
    ¬ NotAfterClose (run w ([.get i] ++ closeCall ++ [.step i])).log := by
  have hlen := (List.getElem?_eq_some_iff.1 hu).1
  have hs := not_isStop hrun
  have e1 : step w (.get i) = { w with users := w.users.set i ⟨u.held, .getPop⟩ } := by
    simp [step, startGet, hu, hpc, hs]
  have hl : (run w ([.get i] ++ closeCall ++ [.step i])).log =
      w.log ++ (w.p.idleItems.filter Option.isSome).map Event.closed ++ [.got i (some x)] := by
    simp only [run, closeCall, List.cons_append, List.nil_append, List.foldl_cons, List.foldl_nil]
    rw [e1]
    simp [step, closeStep, hcl, hrun, userStep, hlen, popHead, hhot, hidle, closeAll]
  refine ⟨hl, fun h => ?_⟩
  have hm : some x ∈ w.p.idleItems.filter Option.isSome := by
    rw [List.mem_filter]
    exact ⟨List.mem_of_getLast? hidle, rfl⟩
  obtain ⟨a, b, e⟩ := List.append_of_mem hm
  refine h (w.log ++ a.map Event.closed) (b.map Event.closed) [] i x ?_
  rw [hl, e]
  simp

example : ∃ w, Reaches 4 true 1 (getCall 0 ++ getCall 0 ++ putCall 0 0 ++ putCall 0 1 ++ getCall 0) w ∧
    w.p.state = .running ∧ w.p.hotItem = none ∧ w.p.idleItems.getLast? = some (some 1) :=
  ⟨_, ⟨four, four_init, rfl⟩, by decide +kernel, by decide +kernel, by decide +kernel⟩

end Memar.Pool
