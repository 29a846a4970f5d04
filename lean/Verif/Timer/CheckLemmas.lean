import Verif.Timer.HistoryLemmas

/-!
# Lemmas about `adjustTimers` and `CheckTimers`
-/

namespace Memar.Timer.Queue

open Memar.Timer

/-! ## `adjustTimers` -/

/-- The entries of the heap have a status that `adjustTimers` handles. -/
def Live (tg : Tg) : Prop :=
  tg.ids.Nodup ∧ ∀ b ∈ tg.heap, (tg.tm b.timer).status = .waiting ∨
    (tg.tm b.timer).status = .deleted ∨ (tg.tm b.timer).status = .modifiedEarlier ∨
    (tg.tm b.timer).status = .modifiedLater

theorem good_live {tg : Tg} (g : Good none tg) : Live tg := by
  refine ⟨g.nodup, fun b hb => ?_⟩
  have h1 := (g.inn b.timer (by simp)).mp (mem_ids.mpr ⟨b, hb, rfl⟩)
  have h2 := g.rest b.timer (by simp)
  unfold AtRest at h2
  rcases h2 with h | h | h | h | h | h
  · exact absurd h h1.1
  · exact Or.inl h
  · exact Or.inr (Or.inl h)
  · exact absurd h h1.2
  · exact Or.inr (Or.inr (Or.inl h))
  · exact Or.inr (Or.inr (Or.inr h))

/-- Removing entry `i` after its timer got the status `s`. -/
theorem delete_live {tg : Tg} (l : Live tg) {i : Nat} {b : Bucket Nat} (hb : tg.heap[i]? = some b)
    (s s' : Status) :
    ∃ tg1 j, deleteTimer (tg.setStatus b.timer s) i = .ok (tg1, j) ∧ j ≤ i ∧
      tg1.heap.length + 1 = tg.heap.length ∧ Live tg1 ∧ Live (tg1.setStatus b.timer s') := by
  obtain ⟨hi, hbi⟩ := List.getElem?_eq_some_iff.mp hb
  obtain ⟨h, j, r1, r2, r3, _⟩ := deleteTimer_spec tg.heap i hi
  rw [hbi] at r2
  obtain ⟨n1, n2⟩ := perm_head r2 l.1
  have hl := r2.length_eq
  rw [List.length_cons] at hl
  have hd : ∃ tg1, deleteTimer (tg.setStatus b.timer s) i = .ok (tg1, j) ∧ tg1.heap = h ∧
      ∀ u, u ≠ b.timer → tg1.tm u = tg.tm u := by
    unfold deleteTimer
    rw [show (tg.setStatus b.timer s).heap = tg.heap from rfl, hb]
    simp only
    rw [r1]
    simp only
    refine ⟨_, rfl, ?_, ?_⟩
    · split <;> rfl
    · intro u hu
      split <;> simp [countDown, updateTimer0When, Tg.setTiming, Tg.setStatus, hu]
  obtain ⟨tg1, d1, d2, d3⟩ := hd
  have hne : ∀ c ∈ h, c.timer ≠ b.timer := fun c hc e => n2 (e ▸ List.mem_map_of_mem hc)
  refine ⟨tg1, j, d1, r3, by rw [d2]; omega, ⟨?_, ?_⟩, ⟨?_, ?_⟩⟩
  · rw [Tg.ids, d2]; exact n1
  · intro c hc
    rw [d2] at hc
    rw [d3 _ (hne c hc)]
    exact l.2 c (r2.mem_iff.mp (List.mem_cons_of_mem _ hc))
  · show (tg1.heap.map _).Nodup
    rw [d2]; exact n1
  · intro c hc
    rw [show (tg1.setStatus b.timer s').heap = tg1.heap from rfl, d2] at hc
    rw [setStatus_tm, if_neg (hne c hc), d3 _ (hne c hc)]
    exact l.2 c (r2.mem_iff.mp (List.mem_cons_of_mem _ hc))

theorem live_count {tg : Tg} (l : Live tg) (n : Int) : Live { tg with deletedCount := n } := l

/-- Once the heap is shorter than the slice `adjustTimers` walks over, it runs into a cleared slot. -/
theorem adjust_panics (len : Nat) (n m : Nat) (tg : Tg) (i : Nat) (moved : List Nat)
    (hn : tg.heap.length = n) (hm : len - i = m) (l : Live tg) (hi : i < len)
    (hlen : tg.heap.length < len) : adjustLoop len i tg moved = .panic := by
  induction n using Nat.strongRecOn generalizing tg i moved m with
  | _ n ihn =>
  induction m using Nat.strongRecOn generalizing i with
  | _ m ihm =>
  rw [adjustLoop.eq_def, dif_pos hi]
  cases hb : tg.heap[i]? with
  | none => rfl
  | some b =>
    simp only
    have hil := (List.getElem?_eq_some_iff.mp hb).1
    have hbm : b ∈ tg.heap := List.mem_of_getElem? hb
    rcases l.2 b hbm with hs | hs | hs | hs
    · rw [hs]; simp only
      exact ihm (len - (i + 1)) (by omega) (i + 1) rfl (by omega)
    · rw [hs]; simp only
      obtain ⟨tg1, j, d1, d2, d3, d4, d5⟩ := delete_live l hb .removing .removed
      split
      · rename_i tg2 c heq
        rw [d1] at heq; cases heq
        exact ihn tg1.heap.length (by omega) _ _ _ _ rfl rfl (live_count d5 _) (by omega)
          (by show tg1.heap.length < len; omega)
      all_goals (rename_i heq; rw [d1] at heq; try cases heq)
    · rw [hs]; simp only
      obtain ⟨tg1, j, d1, d2, d3, d4, d5⟩ := delete_live l hb .moving .removed
      split
      · rename_i tg2 c heq
        rw [d1] at heq; cases heq
        exact ihn tg1.heap.length (by omega) _ _ _ _ rfl rfl d4 (by omega) (by omega)
      all_goals (rename_i heq; rw [d1] at heq; try cases heq)
    · rw [hs]; simp only
      obtain ⟨tg1, j, d1, d2, d3, d4, d5⟩ := delete_live l hb .moving .removed
      split
      · rename_i tg2 c heq
        rw [d1] at heq; cases heq
        exact ihn tg1.heap.length (by omega) _ _ _ _ rfl rfl d4 (by omega) (by omega)
      all_goals (rename_i heq; rw [d1] at heq; try cases heq)

theorem adjust_walk (n : Nat) (tg : Tg) (i : Nat) (hn : tg.heap.length - i = n) (l : Live tg) :
    (adjustLoop tg.heap.length i tg [] = .ok (tg, []) ∧
      ∀ k b, i ≤ k → tg.heap[k]? = some b → (tg.tm b.timer).status = .waiting) ∨
    (adjustLoop tg.heap.length i tg [] = .panic ∧
      ∃ b ∈ tg.heap, (tg.tm b.timer).status ≠ .waiting) := by
  induction n generalizing i with
  | zero =>
    left
    rw [adjustLoop.eq_def, dif_neg (by omega)]
    refine ⟨rfl, fun k b hk hb => ?_⟩
    have := (List.getElem?_eq_some_iff.mp hb).1
    omega
  | succ n ih =>
    have hi : i < tg.heap.length := by omega
    rw [adjustLoop.eq_def, dif_pos hi]
    obtain ⟨b, hb⟩ : ∃ b, tg.heap[i]? = some b := ⟨_, List.getElem?_eq_getElem hi⟩
    rw [hb]
    simp only
    have hbm : b ∈ tg.heap := List.mem_of_getElem? hb
    rcases l.2 b hbm with hs | hs | hs | hs
    · rw [hs]; simp only
      rcases ih (i + 1) (by omega) with ⟨r1, r2⟩ | ⟨r1, r2⟩
      · left
        refine ⟨r1, fun k c hk hc => ?_⟩
        by_cases e : k = i
        · subst e; rw [hb] at hc; cases hc; exact hs
        · exact r2 k c (by omega) hc
      · right; exact ⟨r1, r2⟩
    · right
      refine ⟨?_, b, hbm, by rw [hs]; simp⟩
      rw [hs]; simp only
      obtain ⟨tg1, j, d1, d2, d3, d4, d5⟩ := delete_live l hb .removing .removed
      split
      · rename_i tg2 c heq
        rw [d1] at heq; cases heq
        exact adjust_panics _ _ _ _ _ _ rfl rfl (live_count d5 _) (by omega)
          (by show tg1.heap.length < _; omega)
      all_goals (rename_i heq; rw [d1] at heq; try cases heq)
    · right
      refine ⟨?_, b, hbm, by rw [hs]; simp⟩
      rw [hs]; simp only
      obtain ⟨tg1, j, d1, d2, d3, d4, d5⟩ := delete_live l hb .moving .removed
      split
      · rename_i tg2 c heq
        rw [d1] at heq; cases heq
        exact adjust_panics _ _ _ _ _ _ rfl rfl d4 (by omega) (by omega)
      all_goals (rename_i heq; rw [d1] at heq; try cases heq)
    · right
      refine ⟨?_, b, hbm, by rw [hs]; simp⟩
      rw [hs]; simp only
      obtain ⟨tg1, j, d1, d2, d3, d4, d5⟩ := delete_live l hb .moving .removed
      split
      · rename_i tg2 c heq
        rw [d1] at heq; cases heq
        exact adjust_panics _ _ _ _ _ _ rfl rfl d4 (by omega) (by omega)
      all_goals (rename_i heq; rw [d1] at heq; try cases heq)

theorem good_me {tg : Tg} {x : Option Nat} (g : Good x tg) (n : Int) :
    Good x { tg with modifiedEarliest := n } :=
  ⟨g.order, g.nodup, g.out, g.inn, g.rest, g.timing, g.cnt, g.dcnt, g.t0, g.same⟩

/-- `adjustTimers` does nothing, or finds all timers waiting, or panics. -/
theorem adjust_spec {tg : Tg} (g : Good none tg) (now : Int) :
    (adjustTimers tg now = .ok tg ∧ (tg.modifiedEarliest = 0 ∨ tg.modifiedEarliest > now)) ∨
    (adjustTimers tg now = .ok { tg with modifiedEarliest := 0 } ∧
      tg.modifiedEarliest ≠ 0 ∧ tg.modifiedEarliest ≤ now ∧
      ∀ b ∈ tg.heap, (tg.tm b.timer).status = .waiting) ∨
    (adjustTimers tg now = .panic ∧ tg.modifiedEarliest ≠ 0 ∧ tg.modifiedEarliest ≤ now ∧
      ∃ b ∈ tg.heap, (tg.tm b.timer).status ≠ .waiting) := by
  unfold adjustTimers
  by_cases h : tg.modifiedEarliest = 0 ∨ tg.modifiedEarliest > now
  · left; rw [if_pos h]; exact ⟨rfl, h⟩
  · right
    rw [if_neg h]
    have h1 : tg.modifiedEarliest ≠ 0 := fun c => h (Or.inl c)
    have h2 : tg.modifiedEarliest ≤ now := by omega
    rcases adjust_walk _ { tg with modifiedEarliest := 0 } 0 rfl (good_live (good_me g 0)) with
      ⟨r1, r2⟩ | ⟨r1, r2⟩
    · left
      refine ⟨?_, h1, h2, ?_⟩
      · rw [show ({ tg with modifiedEarliest := 0 } : Tg).heap.length = tg.heap.length from rfl] at r1
        rw [r1]; rfl
      · intro b hb
        obtain ⟨k, hk⟩ := List.mem_iff_getElem?.mp hb
        exact r2 k b (Nat.zero_le _) hk
    · right
      refine ⟨?_, h1, h2, r2⟩
      rw [show ({ tg with modifiedEarliest := 0 } : Tg).heap.length = tg.heap.length from rfl] at r1
      rw [r1]; rfl

/-! ## Running timers -/

theorem fires_once {tg1 : Tg} {b : Bucket Nat} {h : List (Bucket Nat)} {now : Int} :
    armed (ranOnce tg1 b h now) = ⟨upd (armed tg1).due b.timer none, (armed tg1).period⟩ := by
  have htm : ∀ u, (ranOnce tg1 b h now).tm u =
      if u = b.timer then { tg1.tm u with timing := false, status := .unset } else tg1.tm u :=
    fun u => popped_tm tg1 b h .unset tg1.deletedCount u
  apply armed_upd
  · intro u hu; rw [htm, if_neg hu]; exact ⟨rfl, rfl⟩
  · rw [htm, if_pos rfl]; rfl
  · rw [htm, if_pos rfl]

theorem nextWhenInt_next (w p now : Int) (hp : p > 0) : NextDeadline w p now (nextWhenInt w p now) := by
  have hq : ∀ k : Int, 0 ≤ k → w + k * p ≤ now → now < w + (k + 1) * p → (-(now - w)).tdiv p = -k := by
    intro k hk h1 h2
    have hkp := Int.mul_nonneg hk (Int.le_of_lt hp)
    rw [Int.neg_tdiv, Int.tdiv_eq_ediv_of_nonneg (by omega)]
    have : (now - w) / p = k := by
      have e : now - w = (now - w - k * p) + k * p := by omega
      rw [Int.add_mul] at h2
      rw [e, Int.add_mul_ediv_right _ _ (by omega), Int.ediv_eq_zero_of_lt (by omega) (by omega)]
      omega
    rw [this]
  refine ⟨fun h1 h2 h3 => ?_, fun k hk h1 h2 => ?_⟩
  · have := hq 0 (Int.le_refl 0) (by omega) (by omega)
    unfold nextWhenInt
    rw [this]
    simp only [Int.neg_zero, Int.add_zero, Int.mul_one]
    rw [if_neg (by omega)]
  · have := hq k (by omega) h1 h2
    unfold nextWhenInt
    rw [this]
    have e : w + p * (1 + -k) = w - (k - 1) * p := by
      rw [Int.mul_add, Int.mul_neg, Int.mul_comm p k, Int.sub_mul]; omega
    rw [e]
    exact ⟨fun h => by rw [if_neg (by omega)], fun h => by rw [if_pos h]; rfl⟩

theorem fires_again {tg1 : Tg} {b : Bucket Nat} {now : Int}
    (hs : (tg1.tm b.timer).status = .waiting) (hp : (tg1.tm b.timer).period > 0) :
    ∃ w, armed (ranPeriodic tg1 b now) = ⟨upd (armed tg1).due b.timer (some w), (armed tg1).period⟩ ∧
      NextDeadline (tg1.tm b.timer).when (tg1.tm b.timer).period now w := by
  have htm : ∀ u, (ranPeriodic tg1 b now).tm u =
      if u = b.timer then { tg1.tm b.timer with
        when := nextWhenInt (tg1.tm b.timer).when (tg1.tm b.timer).period now } else tg1.tm u :=
    fun u => rfl
  refine ⟨_, armed_upd (v := some (nextWhenInt (tg1.tm b.timer).when (tg1.tm b.timer).period now)) ?_ ?_ ?_,
    nextWhenInt_next _ _ _ hp⟩
  · intro u hu; rw [htm, if_neg hu]; exact ⟨rfl, rfl⟩
  · rw [htm, if_pos rfl]; simp [dueOf, hs]
  · rw [htm, if_pos rfl]

/-- One `runTimer`, seen from outside. -/
theorem runTimer_armed {tg tg' : Tg} {now w : Int} (g : Good none tg) (hne : tg.heap.length ≠ 0)
    (h : runTimer tg.heap.length tg now = .ok (tg', w)) :
    Good none tg' ∧ ∃ new, tg'.fired = tg.fired ++ new ∧
      (∀ rest a', Fires now (armed tg') rest a' → Fires now (armed tg) (new ++ rest) a') := by
  obtain ⟨r1, r2⟩ := runTimer_spec _ tg now g (Nat.le_refl _) hne
  refine ⟨r2 _ _ h, ?_⟩
  rw [h] at r1
  have hcl : ∀ {tg1 : Tg}, Cleaned tg tg1 → armed tg1 = armed tg :=
    fun hc => armed_congr (cleaned_armed hc)
  cases r1 with
  | later _ b hc hb hs hw =>
    exact ⟨[], by rw [hc.2.1, List.append_nil], fun rest a' f => by rw [hcl hc] at f; exact f⟩
  | once tg1 b h hc hb hs hw hp hh =>
    refine ⟨[(b.timer, now)], by rw [← hc.2.1]; rfl, fun rest a' f => ?_⟩
    rw [fires_once, hcl hc] at f
    refine Fires.once _ _ (tg1.tm b.timer).when _ _ ?_ hw ?_ f
    · rw [← hcl hc, armed_eq]; simp [dueOf, hs]
    · rw [← hcl hc]; exact hp
  | periodic tg1 b hc hb hs hw hp =>
    refine ⟨[(b.timer, now)], by rw [← hc.2.1]; rfl, fun rest a' f => ?_⟩
    obtain ⟨w', e, hnext⟩ := fires_again (now := now) hs hp
    rw [e, hcl hc] at f
    refine Fires.again _ _ (tg1.tm b.timer).when _ _ _ ?_ hw ?_ ?_ f
    · rw [← hcl hc, armed_eq]; simp [dueOf, hs]
    · rw [← hcl hc]; exact hp
    · rw [← hcl hc]; exact hnext
  | empty _ hc he hd =>
    exact ⟨[], by rw [hc.2.1, List.append_nil], fun rest a' f => by rw [hcl hc] at f; exact f⟩

theorem runAll_armed (fuel : Nat) {tg tg' : Tg} {now nw : Int} {ran : Bool} (g : Good none tg)
    (h : runAll fuel tg now = .ok (tg', nw, ran)) :
    Good none tg' ∧ ∃ new, tg'.fired = tg.fired ++ new ∧ Fires now (armed tg) new (armed tg') := by
  induction fuel generalizing tg tg' nw ran with
  | zero =>
    rw [runAll] at h
    split at h
    · rename_i hl
      cases hr : runTimer tg.heap.length tg now with
      | ok r =>
        obtain ⟨tg1, tw⟩ := r
        obtain ⟨q1, new, q2, q3⟩ := runTimer_armed g (by omega) hr
        rw [hr] at h
        simp only at h
        split at h
        · cases h
          exact ⟨q1, new, q2, by simpa using q3 [] _ (Fires.nil _)⟩
        · cases h
      | _ => rw [hr] at h; cases h
    · cases h
      exact ⟨g, [], by simp, Fires.nil _⟩
  | succ fuel ih =>
    rw [runAll] at h
    split at h
    · rename_i hl
      cases hr : runTimer tg.heap.length tg now with
      | ok r =>
        obtain ⟨tg1, tw⟩ := r
        obtain ⟨q1, new, q2, q3⟩ := runTimer_armed g (by omega) hr
        rw [hr] at h
        simp only at h
        split at h
        · cases h
          exact ⟨q1, new, q2, by simpa using q3 [] _ (Fires.nil _)⟩
        · cases hr2 : runAll fuel tg1 now with
          | ok r2 =>
            obtain ⟨tg2, nw2, ran2⟩ := r2
            rw [hr2] at h
            simp only [Out.bind, Out.ok.injEq, Prod.mk.injEq] at h
            obtain ⟨p1, new2, p2, p3⟩ := ih q1 hr2
            rw [← h.1]
            exact ⟨p1, new ++ new2, by rw [p2, q2, List.append_assoc], q3 _ _ p3⟩
          | _ => rw [hr2] at h; cases h
      | _ => rw [hr] at h; cases h
    · cases h
      exact ⟨g, [], by simp, Fires.nil _⟩

theorem swept_due (m : Tm) : dueOf (sweptTm m) = dueOf m ∧ (sweptTm m).period = m.period := by
  cases m with
  | mk w p st tm => cases st <;> exact ⟨rfl, rfl⟩

theorem clear_armed {tg tg' : Tg} (g : Good none tg) (h : clearDeleted tg = .ok tg') :
    Good none tg' ∧ tg'.fired = tg.fired ∧ armed tg' = armed tg := by
  obtain ⟨tg2, r1, r2, _, r4, r5, _⟩ := clearDeleted_spec g
  rw [r1] at h; cases h
  refine ⟨r2, r5, armed_congr fun u => ?_⟩
  rw [r4]
  split
  · exact swept_due _
  · exact ⟨rfl, rfl⟩

theorem check_armed {fuel : Nat} {tg tg' : Tg} {now nw : Int} {ran : Bool} (g : Good none tg)
    (h : checkTimers fuel tg now = .ok (tg', nw, ran)) :
    Good none tg' ∧ ∃ new, tg'.fired = tg.fired ++ new ∧ Fires now (armed tg) new (armed tg') := by
  unfold checkTimers at h
  split at h
  · cases h; exact ⟨g, [], by simp, Fires.nil _⟩
  · split at h
    · cases h; exact ⟨g, [], by simp, Fires.nil _⟩
    · have key : ∀ tg2 nw2 ran2, (if tg.heap.length > 0 then
          (adjustTimers tg now).bind fun tg1 => runAll fuel tg1 now
          else Out.ok (tg, (0 : Int), false)) = .ok (tg2, nw2, ran2) →
          Good none tg2 ∧ ∃ new, tg2.fired = tg.fired ++ new ∧
            Fires now (armed tg) new (armed tg2) := by
        intro tg2 nw2 ran2 hh
        split at hh
        · rcases adjust_spec g now with ⟨a1, _⟩ | ⟨a1, _⟩ | ⟨a1, _⟩
          · rw [a1] at hh; exact runAll_armed fuel g hh
          · rw [a1] at hh
            exact runAll_armed (tg := { tg with modifiedEarliest := 0 }) fuel (good_me g 0) hh
          · rw [a1] at hh; cases hh
        · cases hh; exact ⟨g, [], by simp, Fires.nil _⟩
      cases hx : (if tg.heap.length > 0 then
          (adjustTimers tg now).bind fun tg1 => runAll fuel tg1 now
          else Out.ok (tg, (0 : Int), false)) with
      | ok r =>
        obtain ⟨tg2, nw2, ran2⟩ := r
        obtain ⟨k1, new, k2, k3⟩ := key _ _ _ hx
        rw [hx] at h
        simp only [Out.bind] at h
        split at h
        · cases hc : clearDeleted tg2 with
          | ok tg3 =>
            rw [hc] at h
            cases h
            obtain ⟨c1, c2, c3⟩ := clear_armed k1 hc
            exact ⟨c1, new, by rw [c2, k2], by rw [c3]; exact k3⟩
          | _ => rw [hc] at h; cases h
        · cases h
          exact ⟨k1, new, k2, k3⟩
      | _ => rw [hx] at h; cases h

end Memar.Timer.Queue
