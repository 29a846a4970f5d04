import Verif.Pool.Props

/-!
# How long an idle item stays in a pool: the two windows of the cleaner (pool/lifo.go:100-122)
-/

namespace Memar.Pool

/-! ## Specification -/

/-- Specification: how many rounds of the cleaner (pool/lifo.go:109-113: take the old victims away, make the idle
items the new victims) a schedule holds. -/
def rounds : World → List Action → Nat
  | _, [] => 0
  | w, a :: as => (if a = .clean ∧ w.cleaner = .swap then 1 else 0) + rounds (step w a) as

/-- Specification: the cleaner is between two rounds: it sleeps, has just woken up or has ended. -/
def BetweenRounds (w : World) : Prop := w.cleaner = .sleep ∨ w.cleaner = .swap ∨ w.cleaner = .done

/-! ## Where an item is -/

/-- What the cleaner took away and has still to close. -/
def inHand : CleanPc → List (Option Nat)
  | .sub vi => vi
  | .close vi => vi
  | _ => []

/-- The item waits for its first (0) or second (1) round, or was taken away (2). -/
def Place (x : Nat) (k : Nat) (w : World) : Prop :=
  match k with
  | 0 => some x ∈ w.p.idleItems
  | 1 => some x ∈ w.p.victimItems
  | _ => some x ∈ inHand w.cleaner

theorem popHead_places (p : LIFO) (x : Nat) :
    (some x ∈ p.idleItems → some x ∈ (popHead p).2.idleItems ∨ (popHead p).1 = some x) ∧
    (some x ∈ p.victimItems → some x ∈ (popHead p).2.victimItems ∨ (popHead p).1 = some x) ∧
    (p.hotItem = some x → (popHead p).1 = some x) := by
  have drop : ∀ (l : List (Option Nat)) (y : Option Nat), l.getLast? = some y → some x ∈ l →
      some x ∈ l.dropLast ∨ y = some x := by
    intro l y hl hx
    obtain ⟨ys, rfl⟩ := List.getLast?_eq_some_iff.1 hl
    rcases List.mem_append.1 hx with h | h
    · left; simpa using h
    · right; simpa using (List.mem_singleton.1 h).symm
  unfold popHead
  split
  · next y hy => exact ⟨.inl, .inl, fun h => by rw [hy] at h; exact h⟩
  · next hy =>
    split
    · next y hl =>
      exact ⟨fun h => drop _ _ hl h, .inl, fun h => by rw [hy] at h; simp at h⟩
    · split
      · next y hl => exact ⟨.inl, fun h => drop _ _ hl h, fun h => by rw [hy] at h; simp at h⟩
      · exact ⟨.inl, .inl, fun h => by rw [hy] at h; simp at h⟩

theorem pushHead_places (p : LIFO) (o : Option Nat) (x : Nat) :
    (some x ∈ p.idleItems → some x ∈ (pushHead p o).idleItems) ∧
    (pushHead p o).victimItems = p.victimItems ∧
    (p.hotItem = some x → (pushHead p o).hotItem = some x) := by
  unfold pushHead
  split
  · next hy => exact ⟨id, rfl, fun h => by rw [hy] at h; simp at h⟩
  · exact ⟨fun h => List.mem_append.2 (.inl h), rfl, id⟩

/-- What a user's action does to an item in the pool: nothing, or it hands it out. -/
theorem user_effect (w : World) (a : Action) (ha : a ≠ .clean) (hb : a ≠ .close) (x : Nat) :
    (step w a).cleaner = w.cleaner ∧ (step w a).closer = w.closer ∧ (step w a).p.state = w.p.state ∧
    ∃ new, (step w a).log = w.log ++ new ∧
      (.closed (some x) ∈ new → isStop w.p = true ∧ ∃ i, a = .put i (some x) ∧ ∃ u, w.users[i]? = some u ∧ x ∈ u.held) ∧
      ((∃ i, Event.got i (some x) ∈ new) ∨
        ((some x ∈ w.p.idleItems → some x ∈ (step w a).p.idleItems) ∧
         (some x ∈ w.p.victimItems → some x ∈ (step w a).p.victimItems) ∧
         (w.p.hotItem = some x → (step w a).p.hotItem = some x))) := by
  have same : ∀ (w' : World), w'.p = w.p → w'.cleaner = w.cleaner → w'.closer = w.closer → ∀ new, w'.log = w.log ++ new →
      (.closed (some x) ∉ new) →
      w'.cleaner = w.cleaner ∧ w'.closer = w.closer ∧ w'.p.state = w.p.state ∧
      ∃ new, w'.log = w.log ++ new ∧
        (.closed (some x) ∈ new → isStop w.p = true ∧ ∃ i, a = .put i (some x) ∧ ∃ u, w.users[i]? = some u ∧ x ∈ u.held) ∧
        ((∃ i, Event.got i (some x) ∈ new) ∨
          ((some x ∈ w.p.idleItems → some x ∈ w'.p.idleItems) ∧
           (some x ∈ w.p.victimItems → some x ∈ w'.p.victimItems) ∧
           (w.p.hotItem = some x → w'.p.hotItem = some x))) := by
    intro w' h1 h2 h3 new h4 h5
    rw [h1]
    exact ⟨h2, h3, rfl, new, h4, fun h => absurd h h5, .inr ⟨id, id, id⟩⟩
  cases a with
  | clean => exact absurd rfl ha
  | close => exact absurd rfl hb
  | get i =>
    simp only [step]
    split
    · next u hu =>
      split
      · unfold startGet
        split
        · exact same _ rfl rfl rfl [.got i none] rfl (by simp)
        · exact same _ rfl rfl rfl [] (by simp) (by simp)
      · exact same _ rfl rfl rfl [] (by simp) (by simp)
    · exact same _ rfl rfl rfl [] (by simp) (by simp)
  | put i y =>
    simp only [step]
    split
    · next u hu =>
      split
      · next hc =>
        unfold startPut
        split
        · next hst =>
          refine ⟨rfl, rfl, rfl, [.gave i y, .closed y], rfl, ?_, .inr ⟨id, id, id⟩⟩
          intro h
          simp only [List.mem_cons, List.not_mem_nil, or_false] at h
          rcases h with h | h
          · simp at h
          · injection h with h
            exact ⟨hst, i, by rw [h], u, hu, hc.2 x h.symm⟩
        · exact same _ rfl rfl rfl [.gave i y] rfl (by simp)
      · exact same _ rfl rfl rfl [] (by simp) (by simp)
    · exact same _ rfl rfl rfl [] (by simp) (by simp)
  | step i =>
    simp only [step]
    split
    · next u hu =>
      unfold userStep
      split
      · exact same _ rfl rfl rfl [] (by simp) (by simp)
      · obtain ⟨f1, f2, f3, f4⟩ := popHead_fields w.p
        obtain ⟨q1, q2, q3⟩ := popHead_places w.p x
        cases hp : popHead w.p with
        | mk o p' =>
          rw [hp] at f4 q1 q2 q3
          simp only at f4 q1 q2 q3
          cases o with
          | some y =>
            refine ⟨rfl, rfl, f4, [.got i (some y)], rfl, by simp, ?_⟩
            by_cases hy : y = x
            · left; exact ⟨i, by simp [hy]⟩
            · right
              refine ⟨fun h => (q1 h).resolve_right (by simpa using hy),
                fun h => (q2 h).resolve_right (by simpa using hy), fun h => ?_⟩
              exact absurd (q3 h) (by simpa using hy)
          | none =>
            have qq : (some x ∈ w.p.idleItems → some x ∈ p'.idleItems) ∧
                (some x ∈ w.p.victimItems → some x ∈ p'.victimItems) ∧
                (w.p.hotItem = some x → p'.hotItem = some x) :=
              ⟨fun h => (q1 h).resolve_right (by simp), fun h => (q2 h).resolve_right (by simp),
                fun h => absurd (q3 h) (by simp)⟩
            simp only
            split
            · exact ⟨rfl, rfl, f4, [], by simp, by simp, .inr qq⟩
            · exact ⟨rfl, rfl, f4, [.got i none], rfl, by simp, .inr qq⟩
      · exact ⟨rfl, rfl, rfl, [], by simp, by simp, .inr ⟨id, id, id⟩⟩
      · split
        · exact ⟨rfl, rfl, rfl, [.created w.next, .got i (some w.next)], rfl, by simp, .inr ⟨id, id, id⟩⟩
        · exact ⟨rfl, rfl, rfl, [.got i none], rfl, by simp, .inr ⟨id, id, id⟩⟩
      · next y hy =>
        obtain ⟨q1, q2, q3⟩ := pushHead_places w.p y x
        obtain ⟨_, _, _, f4⟩ := pushHead_fields w.p y
        exact ⟨rfl, rfl, f4, [], by simp, by simp, .inr ⟨q1, fun h => by rw [q2]; exact h, q3⟩⟩
    · exact same _ rfl rfl rfl [] (by simp) (by simp)

/-- The log only grows. -/
theorem step_log (w : World) (a : Action) : ∃ new, (step w a).log = w.log ++ new := by
  by_cases ha : a = .clean
  · subst ha
    simp only [step]
    unfold cleanStep
    split
    · split <;> exact ⟨[], by simp⟩
    · exact ⟨[], by simp⟩
    · exact ⟨[], by simp⟩
    · exact ⟨[], by simp⟩
    · exact ⟨_, rfl⟩
    · exact ⟨[], by simp⟩
  · by_cases hb : a = .close
    · subst hb
      simp only [step]
      unfold closeStep
      split
      · split <;> exact ⟨[], by simp⟩
      · exact ⟨_, rfl⟩
      · exact ⟨[], by simp⟩
      · exact ⟨[], by simp⟩
    · obtain ⟨_, _, _, new, h, _⟩ := user_effect w a ha hb 0
      exact ⟨new, h⟩

theorem run_log (as : List Action) : ∀ w : World, ∃ new, (run w as).log = w.log ++ new := by
  induction as with
  | nil => intro w; exact ⟨[], by simp [run]⟩
  | cons a as ih =>
    intro w
    obtain ⟨n1, h1⟩ := step_log w a
    obtain ⟨n2, h2⟩ := ih (step w a)
    exact ⟨n1 ++ n2, by rw [show run w (a :: as) = run (step w a) as from rfl, h2, h1]; simp⟩

/-- A round moves every item one place on; nothing else but handing out and cleaning up takes it away. -/
theorem place_step (w : World) (a : Action) (x k : Nat) (hk : k ≤ 2) (hp : Place x k w) :
    ∃ new, (step w a).log = w.log ++ new ∧
      ((∃ i, Event.got i (some x) ∈ new) ∨ .closed (some x) ∈ new ∨
        ∃ k', k' ≤ 2 ∧ min 2 (k + if a = .clean ∧ w.cleaner = .swap then 1 else 0) ≤ k' ∧ Place x k' (step w a)) := by
  have hk3 : k = 0 ∨ k = 1 ∨ k = 2 := by omega
  by_cases ha : a = .clean
  · subst ha
    simp only [step, true_and]
    unfold cleanStep
    split
    · next hc =>
      have hz : (if w.cleaner = CleanPc.swap then 1 else 0) = 0 := by simp [hc]
      rw [hz]
      split <;>
      · refine ⟨[], by simp, .inr (.inr ⟨k, hk, by omega, ?_⟩)⟩
        rcases hk3 with rfl | rfl | rfl
        · exact hp
        · exact hp
        · simp only [Place, hc, inHand] at hp; simp at hp
    · next hc =>
      rw [if_pos hc]
      refine ⟨[], by simp, .inr (.inr ?_)⟩
      rcases hk3 with rfl | rfl | rfl
      · exact ⟨1, by omega, by omega, hp⟩
      · exact ⟨2, by omega, by omega, hp⟩
      · simp only [Place, hc, inHand] at hp; simp at hp
    · next vi hc =>
      rw [hc, if_neg (by simp)]
      refine ⟨[], by simp, .inr (.inr ⟨k, hk, by omega, ?_⟩)⟩
      rcases hk3 with rfl | rfl | rfl
      · exact hp
      · exact hp
      · simp only [Place, hc, inHand] at hp ⊢; exact hp
    · next hc =>
      rw [hc, if_neg (by simp)]
      refine ⟨[], by simp, .inr (.inr ⟨k, hk, by omega, ?_⟩)⟩
      rcases hk3 with rfl | rfl | rfl
      · exact hp
      · exact hp
      · simp only [Place, hc, inHand] at hp; simp at hp
    · next y vi hc =>
      rw [hc, if_neg (by simp)]
      refine ⟨[.closed y], rfl, .inr ?_⟩
      rcases hk3 with rfl | rfl | rfl
      · exact .inr ⟨0, hk, by omega, hp⟩
      · exact .inr ⟨1, hk, by omega, hp⟩
      · simp only [Place, hc, inHand] at hp
        rcases List.mem_cons.1 hp with h | h
        · left; simp [h]
        · right; exact ⟨2, hk, by omega, h⟩
    · next hc =>
      rw [hc, if_neg (by simp)]
      exact ⟨[], by simp, .inr (.inr ⟨k, hk, by omega, hp⟩)⟩
  · rw [if_neg (by simp [ha])]
    by_cases hb : a = .close
    · subst hb
      obtain ⟨new, hn⟩ := step_log w .close
      refine ⟨new, hn, .inr (.inr ⟨k, hk, by omega, ?_⟩)⟩
      simp only [step]
      unfold closeStep
      split
      · split <;> exact hp
      · exact hp
      · exact hp
      · exact hp
    · obtain ⟨e1, e2, e3, new, h1, h2, h3⟩ := user_effect w a ha hb x
      refine ⟨new, h1, ?_⟩
      rcases h3 with h | ⟨g1, g2, g3⟩
      · exact .inl h
      · refine .inr (.inr ⟨k, hk, by omega, ?_⟩)
        rcases hk3 with rfl | rfl | rfl
        · exact g1 hp
        · exact g2 hp
        · simp only [Place] at hp ⊢; rw [e1]; exact hp

theorem place_run (x : Nat) (as : List Action) : ∀ (w : World) (k : Nat), k ≤ 2 → Place x k w →
    ∃ new, (run w as).log = w.log ++ new ∧
      ((∃ i, Event.got i (some x) ∈ new) ∨ .closed (some x) ∈ new ∨
        ∃ k', k' ≤ 2 ∧ min 2 (k + rounds w as) ≤ k' ∧ Place x k' (run w as)) := by
  induction as with
  | nil => intro w k hk hp; exact ⟨[], by simp [run], .inr (.inr ⟨k, hk, by simp [rounds]; omega, hp⟩)⟩
  | cons a as ih =>
    intro w k hk hp
    obtain ⟨n1, h1, h⟩ := place_step w a x k hk hp
    have hrun : run w (a :: as) = run (step w a) as := rfl
    rcases h with ⟨i, hi⟩ | hi | ⟨k', hk', hle, hp'⟩
    · obtain ⟨n2, h2⟩ := run_log as (step w a)
      exact ⟨n1 ++ n2, by rw [hrun, h2, h1]; simp, .inl ⟨i, by simp [hi]⟩⟩
    · obtain ⟨n2, h2⟩ := run_log as (step w a)
      exact ⟨n1 ++ n2, by rw [hrun, h2, h1]; simp, .inr (.inl (by simp [hi]))⟩
    · obtain ⟨n2, h2, h⟩ := ih (step w a) k' hk' hp'
      refine ⟨n1 ++ n2, by rw [hrun, h2, h1]; simp, ?_⟩
      rcases h with ⟨i, hi⟩ | hi | ⟨k2, hk2, hle2, hp2⟩
      · exact .inl ⟨i, by simp [hi]⟩
      · exact .inr (.inl (by simp [hi]))
      · refine .inr (.inr ⟨k2, hk2, ?_, hp2⟩)
        rw [rounds]
        omega

/-- C303, what holds: an idle item of the list that nobody takes is cleaned up within two rounds of the cleaner, whatever
users, cleaner and closer do meanwhile and however their steps interleave.  Missing: the item kept aside (refuted:
`C303_hot_violated`). -/
theorem C303_two_rounds_partial (w : World) (x : Nat) (hx : some x ∈ w.p.idleItems) (as : List Action)
    (h2 : 2 ≤ rounds w as) (hb : BetweenRounds (run w as)) :
    ∃ new, (run w as).log = w.log ++ new ∧ ((∃ i, Event.got i (some x) ∈ new) ∨ .closed (some x) ∈ new) := by
  obtain ⟨new, h1, h⟩ := place_run x as w 0 (by omega) hx
  refine ⟨new, h1, ?_⟩
  rcases h with h | h | ⟨k', hk', hle, hp⟩
  · exact .inl h
  · exact .inr h
  · exfalso
    have : k' = 2 := by omega
    subst this
    simp only [Place] at hp
    rcases hb with e | e | e <;> (rw [e] at hp; simp [inHand] at hp)

/-! ## Not before the second round -/

theorem count_pos_of_mem {l : List (Option Nat)} {x : Nat} (h : some x ∈ l) : 0 < l.count (some x) :=
  List.count_pos_iff.2 h

/-- An item has one place only. -/
theorem not_in_hand (w : World) (hi : Inv w) (x : Nat)
    (h : some x ∈ w.p.idleItems ∨ some x ∈ w.p.victimItems ∨ w.p.hotItem = some x) :
    some x ∉ inHand w.cleaner ∧ ∀ (i : Nat) (u : User), w.users[i]? = some u → x ∉ u.held := by
  have ho := hi.own x
  have hpool : 0 < poolCount w.p x := by
    simp only [poolCount]
    rcases h with h | h | h
    · have := count_pos_of_mem h; omega
    · have := count_pos_of_mem h; omega
    · simp [optCount, h]; omega
  constructor
  · intro hh
    have : 0 < cleanCount w.cleaner x := by
      cases hc : w.cleaner with
      | sub vi => rw [hc] at hh; exact count_pos_of_mem hh
      | close vi => rw [hc] at hh; exact count_pos_of_mem hh
      | sleep => rw [hc] at hh; simp [inHand] at hh
      | swap => rw [hc] at hh; simp [inHand] at hh
      | done => rw [hc] at hh; simp [inHand] at hh
    simp only [owned] at ho; omega
  · intro i u hu hm
    have h1 := userCount_le w.users i u x hu
    have : 0 < u.held.count x := List.count_pos_iff.2 hm
    simp only [owned, userCount] at ho h1
    omega

theorem early_step (w : World) (hi : Inv w) (hr : w.p.state = .running) (a : Action) (ha : a ≠ .close) (x k : Nat)
    (hk : k + (if a = .clean ∧ w.cleaner = .swap then 1 else 0) ≤ 1) (hp : Place x k w) :
    (step w a).p.state = .running ∧ ∃ new, (step w a).log = w.log ++ new ∧
      ((∃ i, Event.got i (some x) ∈ new) ∨
        (.closed (some x) ∉ new ∧ Place x (k + if a = .clean ∧ w.cleaner = .swap then 1 else 0) (step w a))) := by
  have hk2 : k = 0 ∨ k = 1 := by omega
  have hplace : some x ∈ w.p.idleItems ∨ some x ∈ w.p.victimItems ∨ w.p.hotItem = some x := by
    rcases hk2 with rfl | rfl
    · exact .inl hp
    · exact .inr (.inl hp)
  obtain ⟨hnh, _⟩ := not_in_hand w hi x hplace
  by_cases hc : a = .clean
  · subst hc
    simp only [step, true_and] at hk ⊢
    unfold cleanStep
    split
    · next hc =>
      have hz : (if w.cleaner = CleanPc.swap then 1 else 0) = 0 := by simp [hc]
      rw [hz]
      split <;>
      · refine ⟨hr, [], by simp, .inr ⟨by simp, ?_⟩⟩
        rcases hk2 with rfl | rfl <;> exact hp
    · next hc =>
      rw [if_pos hc] at hk ⊢
      refine ⟨hr, [], by simp, .inr ⟨by simp, ?_⟩⟩
      rcases hk2 with rfl | rfl
      · exact hp
      · omega
    · next vi hc =>
      rw [hc, if_neg (by simp)]
      refine ⟨hr, [], by simp, .inr ⟨by simp, ?_⟩⟩
      rcases hk2 with rfl | rfl <;> exact hp
    · next hc =>
      rw [hc, if_neg (by simp)]
      refine ⟨hr, [], by simp, .inr ⟨by simp, ?_⟩⟩
      rcases hk2 with rfl | rfl <;> exact hp
    · next y vi hc =>
      rw [hc] at hnh
      rw [hc, if_neg (by simp)]
      refine ⟨hr, [.closed y], rfl, .inr ⟨?_, ?_⟩⟩
      · intro h
        simp only [List.mem_singleton, Event.closed.injEq] at h
        exact hnh (by simp [inHand, h])
      · rcases hk2 with rfl | rfl <;> exact hp
    · next hc =>
      rw [hc, if_neg (by simp)]
      refine ⟨hr, [], by simp, .inr ⟨by simp, ?_⟩⟩
      rcases hk2 with rfl | rfl <;> exact hp
  · rw [if_neg (by simp [hc])]
    obtain ⟨e1, e2, e3, new, h1, h2, h3⟩ := user_effect w a hc ha x
    refine ⟨by rw [e3]; exact hr, new, h1, ?_⟩
    rcases h3 with h | ⟨g1, g2, _⟩
    · exact .inl h
    · refine .inr ⟨fun h => ?_, ?_⟩
      · have := (h2 h).1
        simp [isStop, hr] at this
      · rcases hk2 with rfl | rfl
        · exact g1 hp
        · exact g2 hp

theorem early_run (x : Nat) (as : List Action) : ∀ (w : World), Inv w → w.p.state = .running → .close ∉ as →
    ∀ k, k + rounds w as ≤ 1 → Place x k w →
      ∃ new, (run w as).log = w.log ++ new ∧
        ((∃ i, Event.got i (some x) ∈ new) ∨
          (.closed (some x) ∉ new ∧ Place x (k + rounds w as) (run w as))) := by
  induction as with
  | nil => intro w _ _ _ k _ hp; exact ⟨[], by simp [run], .inr ⟨by simp, hp⟩⟩
  | cons a as ih =>
    intro w hi hr hn k hk hp
    simp only [List.mem_cons, not_or] at hn
    rw [rounds] at hk
    obtain ⟨s1, n1, h1, h⟩ := early_step w hi hr a (fun e => hn.1 e.symm) x k (by omega) hp
    have hrun : run w (a :: as) = run (step w a) as := rfl
    rcases h with ⟨i, hg⟩ | ⟨hc, hp'⟩
    · obtain ⟨n2, h2⟩ := run_log as (step w a)
      exact ⟨n1 ++ n2, by rw [hrun, h2, h1]; simp, .inl ⟨i, by simp [hg]⟩⟩
    · obtain ⟨n2, h2, h⟩ := ih (step w a) (hi.step a) s1 hn.2 _ (by omega) hp'
      refine ⟨n1 ++ n2, by rw [hrun, h2, h1]; simp, ?_⟩
      rcases h with ⟨i, hg⟩ | ⟨hc2, hp2⟩
      · exact .inl ⟨i, by simp [hg]⟩
      · right
        refine ⟨by simp [hc, hc2], ?_⟩
        rw [rounds, ← Nat.add_assoc]
        exact hp2

/-- C303: while a pool runs, an idle item of the list is not cleaned up before the second round of the cleaner: after at
most one round it is still in the pool or was handed out. -/
theorem C303_not_before {max : Int} {hasNew : Bool} {n : Nat} {before : List Action} {w : World}
    (h : Reaches max hasNew n before w) (hr : w.p.state = .running) (x : Nat) (hx : some x ∈ w.p.idleItems)
    (as : List Action) (hn : .close ∉ as) (h1 : rounds w as ≤ 1) :
    ∃ new, (run w as).log = w.log ++ new ∧ ((∃ i, Event.got i (some x) ∈ new) ∨
      (.closed (some x) ∉ new ∧ (some x ∈ (run w as).p.idleItems ∨ some x ∈ (run w as).p.victimItems))) := by
  obtain ⟨new, e, hh⟩ := early_run x as w h.inv hr hn 0 (by omega) hx
  refine ⟨new, e, ?_⟩
  rcases hh with hh | ⟨a1, a2⟩
  · exact .inl hh
  · refine .inr ⟨a1, ?_⟩
    have : 0 + rounds w as = 0 ∨ 0 + rounds w as = 1 := by omega
    rcases this with e | e <;> rw [e] at a2
    · exact .inl a2
    · exact .inr a2

/-! ## The item kept aside -/

theorem hot_step (w : World) (hi : Inv w) (x : Nat) (hx : w.p.hotItem = some x) (a : Action) (hg : ∀ i, a ≠ .get i)
    (hu : ∀ u ∈ w.users, u.pc ≠ .getPop) :
    (step w a).p.hotItem = some x ∧ (∀ u ∈ (step w a).users, u.pc ≠ .getPop) ∧
    ∃ new, (step w a).log = w.log ++ new ∧ .closed (some x) ∉ new := by
  obtain ⟨hnh, hnu⟩ := not_in_hand w hi x (.inr (.inr hx))
  have hnp : some x ∉ w.p.idleItems := by
    intro hm
    have ho := hi.own x
    have := count_pos_of_mem hm
    simp only [owned, poolCount, optCount, hx, if_true] at ho
    omega
  have hset : ∀ (i : Nat) (v : User), v.pc ≠ .getPop → ∀ u ∈ w.users.set i v, u.pc ≠ .getPop := by
    intro i v hv u hm
    rcases List.mem_or_eq_of_mem_set hm with h | h
    · exact hu u h
    · rw [h]; exact hv
  cases a with
  | get i => exact absurd rfl (hg i)
  | clean =>
    simp only [step]
    unfold cleanStep
    split
    · split <;> exact ⟨hx, hu, [], by simp, by simp⟩
    · exact ⟨hx, hu, [], by simp, by simp⟩
    · exact ⟨hx, hu, [], by simp, by simp⟩
    · exact ⟨hx, hu, [], by simp, by simp⟩
    · next y vi hc =>
      refine ⟨hx, hu, [.closed y], rfl, ?_⟩
      intro h
      simp only [List.mem_singleton, Event.closed.injEq] at h
      rw [hc] at hnh
      exact hnh (by simp [inHand, h])
    · exact ⟨hx, hu, [], by simp, by simp⟩
  | close =>
    simp only [step]
    unfold closeStep
    split
    · split <;> exact ⟨hx, hu, [], by simp, by simp⟩
    · refine ⟨hx, hu, closeAll w.p.idleItems, rfl, ?_⟩
      intro h
      simp only [closeAll, List.mem_map, List.mem_filter, Event.closed.injEq] at h
      obtain ⟨o, ⟨h1, _⟩, h2⟩ := h
      rw [h2] at h1
      exact hnp h1
    · exact ⟨hx, hu, [], by simp, by simp⟩
    · exact ⟨hx, hu, [], by simp, by simp⟩
  | put i y =>
    obtain ⟨_, _, _, new, h1, h2, h3⟩ := user_effect w (.put i y) (by simp) (by simp) x
    refine ⟨?_, ?_, new, h1, ?_⟩
    · simp only [step]
      split
      · split
        · unfold startPut
          split <;> exact hx
        · exact hx
      · exact hx
    · simp only [step]
      split
      · split
        · unfold startPut
          split <;> exact hset _ _ (by simp)
        · exact hu
      · exact hu
    · intro h
      obtain ⟨_, j, _, u, hj, hm⟩ := h2 h
      exact hnu j u hj hm
  | step i =>
    obtain ⟨_, _, _, new, h1, h2, h3⟩ := user_effect w (.step i) (by simp) (by simp) x
    refine ⟨?_, ?_, new, h1, ?_⟩
    · simp only [step]
      split
      · next u hj =>
        unfold userStep
        split
        · exact hx
        · next hpc => exact absurd hpc (hu u (List.mem_of_getElem? hj))
        · exact hx
        · split <;> exact hx
        · next y hpc => exact (pushHead_places w.p y x).2.2 hx
      · exact hx
    · simp only [step]
      split
      · next u hj =>
        unfold userStep
        split
        · exact hu
        · next hpc => exact absurd hpc (hu u (List.mem_of_getElem? hj))
        · exact hset _ _ (by simp)
        · split <;> exact hset _ _ (by simp)
        · exact hset _ _ (by simp)
      · exact hu
    · intro h
      obtain ⟨_, j, hj, _⟩ := h2 h
      simp at hj

/-- C303 violated: the item kept aside (the first one put back while none is) is never cleaned up: as long as nobody calls
`Get` it stays in the pool through any number of rounds, and through `Close` too. -/
theorem C303_hot_violated {max : Int} {hasNew : Bool} {n : Nat} {before : List Action} {w : World}
    (h : Reaches max hasNew n before w) (x : Nat) (hx : w.p.hotItem = some x) (hu : ∀ u ∈ w.users, u.pc ≠ .getPop)
    (as : List Action) (hg : ∀ i, .get i ∉ as) :
    (run w as).p.hotItem = some x ∧ ∃ new, (run w as).log = w.log ++ new ∧ .closed (some x) ∉ new := by
  have hi := h.inv
  clear h
  induction as generalizing w with
  | nil => exact ⟨hx, [], by simp [run], by simp⟩
  | cons a as ih =>
    have hga : ∀ i, a ≠ .get i := fun i e => hg i (by simp [e])
    obtain ⟨s1, s2, n1, h1, h2⟩ := hot_step w hi x hx a hga hu
    obtain ⟨r1, n2, h3, h4⟩ := ih s1 s2 (fun i hm => hg i (by simp [hm])) (hi.step a)
    exact ⟨r1, n1 ++ n2, by rw [show run w (a :: as) = run (step w a) as from rfl, h3, h1]; simp, by simp [h2, h4]⟩

/-- One whole round of the cleaner over the nil slots of a pool of four and one item more. -/
def oneRound (k : Nat) : List Action := List.replicate (4 + k) .clean
/-- Two items taken and put back: the first is kept aside, the second is in the list. -/
def twoBack : List Action := getCall 0 ++ getCall 0 ++ putCall 0 0 ++ putCall 0 1

example : let w := run (World.start ⟨4, true, 0, none, [none], [], .running⟩ 1) twoBack
    w.p.hotItem = some 0 ∧ w.p.idleItems = [some 1] ∧ rounds w (List.replicate 9 .clean) = 2 ∧
    BetweenRounds (run w (List.replicate 9 .clean)) ∧ .closed (some 1) ∈ (run w (List.replicate 9 .clean)).log ∧
    rounds w (List.replicate 5 .clean) = 1 := by
  refine ⟨by decide +kernel, by decide +kernel, by decide +kernel, ?_, by decide +kernel, by decide +kernel⟩
  unfold BetweenRounds
  decide +kernel
example := C303_hot_violated (w := run (World.start ⟨4, true, 0, none, [none], [], .running⟩ 1) twoBack)
  (max := 4) (hasNew := true) (n := 1) (before := twoBack) ⟨_, rfl, rfl⟩ 0 (by decide +kernel) (by decide +kernel)
  (List.replicate 9 .clean) (by simp)
example := C303_not_before (w := run (World.start ⟨4, true, 0, none, [none], [], .running⟩ 1) twoBack)
  (max := 4) (hasNew := true) (n := 1) (before := twoBack) ⟨_, rfl, rfl⟩ (by decide +kernel) 1 (by decide +kernel)
  (List.replicate 5 .clean) (by simp) (by decide +kernel)

end Memar.Pool
