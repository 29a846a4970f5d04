import Verif.Tight.Json
import Verif.Timer.DriverProps

/-!
# C47, C147: what may follow an array, and when a sleeping thread is woken
-/

namespace Memar.Json
open Memar Decimal

theorem checkNull_clear (b more : Bytes) (hb : ch 'n' ∉ b)
    (hm : more = [] ∨ ∃ r, more = ch ',' :: r ∨ more = ch '"' :: r) : checkNull false (b ++ more) = some false := by
  induction b with
  | nil =>
    rcases hm with rfl | ⟨r, rfl | rfl⟩
    · rfl
    · rw [List.nil_append, checkNull, if_neg (by decide), if_neg (by decide), if_pos rfl]
    · rw [List.nil_append, checkNull, if_neg (by decide), if_pos rfl]
  | cons c r ih =>
    have hc : c ≠ ch 'n' := fun e => hb (by rw [e]; simp)
    rw [List.cons_append, checkNull, if_neg hc]
    split
    · rfl
    · split
      · rfl
      · exact ih fun h => hb (List.mem_cons_of_mem _ h)

theorem digits_noN (n : Nat) : ch 'n' ∉ decDigits n :=
  fun h => absurd (decDigits_allDigits n _ h) (by unfold IsDigit; decide)

/-- C47. Arrays of two or more numbers, after anything without digits and without the letter `n`, are read back into an array of the
same length whatever follows the closing bracket; arrays of one number if no letter `n` stands between the bracket and the next comma,
the next quote or the end. -/
theorem C47_array_texts {w} (p : Bytes → Option (BitVec w)) (hp : ReadsDecimal p) (s : List (BitVec w)) (hs : s ≠ [])
    (tok : Byte) (last pre rest enc : Bytes) (hpre : ∀ c ∈ pre, ¬ IsDigit c) (hn : ch 'n' ∉ pre)
    (hrest : 2 ≤ s.length ∨ ∃ gap more, rest = gap ++ more ∧ ch 'n' ∉ gap ∧
      (more = [] ∨ ∃ r, more = ch ',' :: r ∨ more = ch '"' :: r))
    (henc : encodeSlice pre s = some enc) :
    Decoder.decodeArray p s.length { buf := enc ++ ch ']' :: rest, token := tok, lastItem := last } =
      some ({ buf := ch ']' :: rest, token := ch ']', lastItem := [] }, s, none) := by
  refine C47_array p hp s hs tok last pre rest enc hpre henc ?_
  show checkNull false (enc ++ ch ']' :: rest) = some false
  match s, hs with
  | [v], _ =>
    rcases hrest with h | ⟨gap, more, rfl, hg, hm⟩
    · simp at h
    · rw [encodeSlice_eq] at henc
      cases henc
      rw [show commaList [v] = decDigits v.toNat from rfl,
        show (pre ++ decDigits v.toNat) ++ ch ']' :: (gap ++ more) = (pre ++ decDigits v.toNat ++ ch ']' :: gap) ++ more by simp]
      refine checkNull_clear _ _ ?_ hm
      intro h
      rw [List.mem_append, List.mem_append, List.mem_cons] at h
      rcases h with (h | h) | h | h
      · exact hn h
      · exact digits_noN _ h
      · exact absurd h (by decide)
      · exact hg h
  | v :: u :: r, _ =>
    rw [encodeSlice_eq] at henc
    cases henc
    rw [commaList_cons,
      show pre ++ (decDigits v.toNat ++ ch ',' :: commaList (u :: r)) ++ ch ']' :: rest =
        (pre ++ decDigits v.toNat) ++ ch ',' :: (commaList (u :: r) ++ ch ']' :: rest) by simp]
    refine checkNull_clear _ _ ?_ (Or.inr ⟨_, Or.inl rfl⟩)
    intro h
    rcases List.mem_append.mp h with h | h
    · exact hn h
    · exact digits_noN _ h

/-- Two numbers, followed by a name that would be taken for `null` after one number. -/
example := C47_array_texts ownParser8 ownParser8_reads [7#8, 255#8] (by simp) 0 [] (bs "[") (bs " null") _
  (by intro c hc; simp [bs] at hc; subst hc; unfold IsDigit; decide) (by decide) (Or.inl (by decide)) (encodeSlice_eq _ _ _)
example := C47_array_texts ownParser8 ownParser8_reads [7#8] (by simp) 0 [] (bs "[") (bs " } ,null") _
  (by intro c hc; simp [bs] at hc; subst hc; unfold IsDigit; decide) (by decide)
  (Or.inr ⟨bs " } ", bs ",null", by decide, by decide, Or.inr ⟨bs "null", Or.inl rfl⟩⟩) (encodeSlice_eq _ _ _)

/-- C47: the condition is needed: after an array of one number, with the four letters `null` before the next comma, nothing is read. -/
theorem C47_one_number_then_null {w} (p : Bytes → Option (BitVec w)) (v : BitVec w) (tok : Byte) (last pre gap more rest : Bytes)
    (hpre : ∀ c ∈ pre, c ≠ ch '"' ∧ c ≠ ch ',') (hgap : ∀ c ∈ gap, c ≠ ch '"' ∧ c ≠ ch ',') (hmore : ∀ c ∈ more, c ≠ ch '"' ∧ c ≠ ch ',')
    (hl : 3 ≤ rest.length) (n : Nat) :
    let d : Decoder := { buf := pre ++ decDigits v.toNat ++ ch ']' :: (gap ++ (bs "null" ++ (more ++ ch ',' :: rest))),
                         token := tok, lastItem := last }
    Decoder.decodeArray p n d = some (d, [], none) := by
  intro d
  have h : d.checkNullValue = some true := by
    show checkNull false (pre ++ decDigits v.toNat ++ ch ']' :: (gap ++ (bs "null" ++ (more ++ ch ',' :: rest)))) = _
    rw [show pre ++ decDigits v.toNat ++ ch ']' :: (gap ++ (bs "null" ++ (more ++ ch ',' :: rest))) =
      (pre ++ decDigits v.toNat ++ ch ']' :: gap) ++ (bs "null" ++ (more ++ ch ',' :: rest)) by simp]
    refine checkNull_finds _ more rest ?_ hmore hl false
    intro c hc
    rw [List.mem_append, List.mem_append, List.mem_cons] at hc
    rcases hc with (hc | hc) | hc | hc
    · exact hpre c hc
    · have hd := decDigits_allDigits _ _ hc
      constructor <;> (intro e; subst e; exact absurd hd (by unfold IsDigit; decide))
    · subst hc; exact ⟨by decide, by decide⟩
    · exact hgap c hc
  unfold Decoder.decodeArray
  rw [h]

example : Decoder.decodeArray ownParser8 1 (.init (bs "[7] null,abc")) = some (.init (bs "[7] null,abc"), [], none) := by decide +kernel

end Memar.Json

namespace Memar.Timer.Queue
open Memar.Timer

theorem runCalls_append (cs ds : List Call) : ∀ tg, runCalls (cs ++ ds) tg = (runCalls cs tg).bind fun tg1 => runCalls ds tg1 := by
  induction cs with
  | nil => intro tg; rfl
  | cons c cs ih =>
    intro tg
    rw [List.cons_append, runCalls, runCalls]
    cases c.run tg with
    | ok r => exact ih r.1
    | _ => rfl

theorem fires_kept {now : Int} {a a' : Armed} {new : List (Nat × Int)} (f : Fires now a new a') (t : Nat) :
    (∃ x, (t, x) ∈ new) ∨ a'.due t = a.due t := by
  induction f with
  | nil a => exact Or.inr rfl
  | once a t' w rest a' h1 h2 h3 h4 ih =>
    by_cases e : t = t'
    · exact Or.inl ⟨now, by rw [e]; simp⟩
    · rcases ih with ⟨x, hx⟩ | ih
      · exact Or.inl ⟨x, List.mem_cons_of_mem _ hx⟩
      · exact Or.inr (by rw [ih]; simp [upd, e])
  | again a t' w w2 rest a' h1 h2 h3 hn h4 ih =>
    by_cases e : t = t'
    · exact Or.inl ⟨now, by rw [e]; simp⟩
    · rcases ih with ⟨x, hx⟩ | ih
      · exact Or.inl ⟨x, List.mem_cons_of_mem _ hx⟩
      · exact Or.inr (by rw [ih]; simp [upd, e])

/-- A one-shot timer nobody calls has run, or is still armed with its deadline. -/
theorem history_kept {t : Nat} {cs : List Call} {a a' : Armed} {new : List (Nat × Int)} (h : History cs a new a')
    (hw : ∀ c ∈ cs, c.without t) (hp : a.period t ≤ 0) (w : Int) (hd : a.due t = some w) :
    (∃ x, (t, x) ∈ new) ∨ a'.due t = some w := by
  induction h with
  | nil a => exact Or.inr hd
  | cons c cs a a1 a2 r new rest h1 h2 ih =>
    have ih := ih (fun d hd => hw d (List.mem_cons_of_mem _ hd))
    rcases spec_without (hw c (by simp)) h1 with ⟨e1, e2, e3⟩ | ⟨fuel, now, _, f⟩
    · subst e1
      exact ih (by rw [e3]; exact hp) (by rw [e2]; exact hd)
    · have hper := fires_period f
      rcases fires_kept f t with ⟨x, hx⟩ | j3
      · exact Or.inl ⟨x, List.mem_append.mpr (Or.inl hx)⟩
      · rcases ih (by rw [hper]; exact hp) (j3.trans hd) with ⟨x, hx⟩ | e
        · exact Or.inl ⟨x, List.mem_append.mpr (Or.inr hx)⟩
        · exact Or.inr e

/-- C147: without periodic timers in the queue a sleeping thread is woken exactly once, and not before the duration is over, as soon as the
loop has looked at the queue once after that: `cs` is what happened before, `ds` what happens from then on, and the last
look at the queue is at `n`. -/
theorem C147_sleep_woken (cs : List Call) (hcs : ∀ c ∈ cs, c.plain) (tg : Tg) (h : runCalls cs Tg.init = .ok tg)
    (t : Nat) (d now : Int) (hd : 0 < d) (hnow : 0 ≤ now) (hnew : tg.tm t = ⟨0, 0, .unset, false⟩)
    (tg1 : Tg) (hs : sleep tg t d now = .ok (some tg1))
    (ds : List Call) (hds : ∀ c ∈ ds, c.without t ∧ c.plain) (fuel : Nat) (n : Int) (hn : now + d ≤ n) (tg2 : Tg)
    (hrun : runCalls (ds ++ [.check fuel n]) tg1 = .ok tg2) :
    ∃ new, tg2.fired = tg.fired ++ new ∧ new.countP (fun y => y.1 == t) = 1 ∧ ∀ x, (t, x) ∈ new → now + d ≤ x := by
  have g := runCalls_good good_init h
  have k := runCalls_timely good_init timely_init hcs h
  rw [sleep, if_neg (by omega)] at hs
  cases hr : start tg t d now with
  | ok r =>
    obtain ⟨tg1', e⟩ := r
    rw [hr] at hs
    have hs : tg1' = tg1 := by injection hs with hs; injection hs
    subst hs
    have he : e = none := by
      unfold start at hr
      rw [if_neg (by omega), if_neg (by rw [hnew]; simp)] at hr
      cases ha : addTimer (((tg.setStatus t .waiting).setWhen t (now + d)).setTiming t true) t with
      | ok tg2 => rw [ha] at hr; cases hr; rfl
      | _ => rw [ha] at hr; cases hr
    subst he
    obtain ⟨n1, a1, a2, a3⟩ := call_spec (c := .start t d now) g hr
    rw [if_pos rfl] at a3
    have hdue : (armed tg1').due t = some (now + d) := by rw [a3]; simp [upd]
    have hper : (armed tg1').period t ≤ 0 := by
      rw [a3]
      show (tg.tm t).period ≤ 0
      rw [hnew]; exact Int.le_refl 0
    have g1 := call_good (c := .start t d now) g hr
    have k1 := start_timely g k hnow hr
    obtain ⟨new, q1, q2⟩ := runCalls_history g1 hrun
    have hw : ∀ c ∈ ds ++ [Call.check fuel n], c.without t := by
      intro c hc
      rcases List.mem_append.mp hc with hc | hc
      · exact (hds c hc).1
      · rw [List.mem_singleton.mp hc]; exact trivial
    obtain ⟨r1, r2⟩ := (history_shot q2 hw hper).2.2 _ hdue
    refine ⟨new, by rw [q1, a1, a2, List.append_nil], ?_, r1⟩
    have hq : Quiet tg2 n := by
      rw [runCalls_append] at hrun
      cases hm : runCalls ds tg1' with
      | ok tgm =>
        rw [hm] at hrun
        simp only [Out.bind, runCalls, Call.run] at hrun
        cases hx : checkTimers fuel tgm n with
        | ok r =>
          obtain ⟨tg3, nw, ran⟩ := r
          rw [hx] at hrun
          cases hrun
          exact (check_timely (runCalls_good g1 hm) (runCalls_timely g1 k1 (fun c hc => (hds c hc).2) hm) hx).2
        | _ => rw [hx] at hrun; cases hrun
      | _ => rw [hm] at hrun; cases hrun
    rcases history_kept q2 hw hper _ hdue with ⟨x, hx⟩ | e
    · have : 0 < new.countP (fun y => y.1 == t) := List.countP_pos_iff.mpr ⟨_, hx, by simp⟩
      omega
    · have := hq t _ e
      omega
  | _ => rw [hr] at hs; cases hs

/-- A thread sleeps for 7 from 3 on, next to other timers, and the loop looks at the queue at 8, 12 and 200. -/
example : ∃ tg, runCalls [.start 1 100 0, .start 2 5 0] Tg.init = .ok tg ∧
    (match sleep tg 9 7 3 with
      | .ok (some tg1) => (match runCalls ([.check 9 8, .start 3 40 8, .stop 3] ++ [.check 9 12]) tg1 with
        | .ok tg2 => decide (tg2.fired = [(2, 8), (9, 12)] ∧ (tg.tm 9).when = 0 ∧ (tg.tm 9).period = 0 ∧ (tg.tm 9).status = .unset ∧ (tg.tm 9).timing = false)
        | _ => false)
      | _ => false) = true :=
  ends_elim (by decide +kernel)

end Memar.Timer.Queue
