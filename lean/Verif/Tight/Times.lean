import Verif.Time.Props
import Verif.Identifier.Props
import Verif.Timer.TimingProps
import Verif.Pool.Props
import Verif.Registry.Props

/-!
# Seconds that do not fit, times before the epoch, order of identifiers, refused ticks, idle items that are withheld, chains of errors
-/

namespace Memar.Time
open Memar

/-- **C253** violated for every duration that does not fit: the nanoseconds are the exact number reduced into the 64-bit range, so they are the exact number
if and only if it fits; no error is reported. -/
theorem C253_overflow_any_violated (sec : I64) (nsec : I32) :
    (fromSecAndNano sec nsec).toInt = (sec.toInt * 1000000000 + nsec.toInt).bmod 18446744073709551616 ∧
    ((fromSecAndNano sec nsec).toInt = sec.toInt * 1000000000 + nsec.toInt ↔
      -9223372036854775808 ≤ sec.toInt * 1000000000 + nsec.toInt ∧ sec.toInt * 1000000000 + nsec.toInt < 9223372036854775808) := by
  have e : (fromSecAndNano sec nsec).toInt = (sec.toInt * 1000000000 + nsec.toInt).bmod 18446744073709551616 := by
    rw [fromSecAndNano, BitVec.toInt_add, toNanoSecond, BitVec.toInt_mul, toInt_nsis,
      BitVec.toInt_signExtend_of_le (by decide), Int.bmod_add_bmod]
  refine ⟨e, fun h => ?_, fun h => toInt_fromSecAndNano h.1 h.2⟩
  have h1 := (fromSecAndNano sec nsec).le_toInt
  have h2 := (fromSecAndNano sec nsec).toInt_lt
  rw [h] at h1 h2
  constructor <;> simp at h1 h2 ⊢ <;> omega

example : (9223372037#64 : I64).toInt * 1000000000 + (0#32 : I32).toInt ≥ 9223372036854775808 := by decide +kernel

theorem neg_tmod (s : Int) (hs : 0 < s) (n : Int) (hn : 0 < n) : (-s).tmod n = -(s % n) := by
  rw [Int.neg_tmod, Int.tmod_eq_emod_of_nonneg (by omega)]

theorem neg_tdiv (s : Int) (hs : 0 ≤ s) (n : Int) : (-s).tdiv n = -(s / n) := by
  rw [Int.neg_tdiv, Int.tdiv_eq_ediv_of_nonneg hs]

theorem toInt_quot (x : I64) (m n : Int) (hm : 0 < m ∧ m < 9223372036854775808) (hn : 1 < n ∧ n < 9223372036854775808) (hx : x.toInt < 0) :
    ((x.srem (BitVec.ofInt 64 m)).sdiv (BitVec.ofInt 64 n)).toInt = -(-x.toInt % m / n) := by
  have em : (BitVec.ofInt 64 m).toInt = m := by
    rw [BitVec.toInt_ofInt]; simp [Int.bmod]; omega
  have en : (BitVec.ofInt 64 n).toInt = n := by
    rw [BitVec.toInt_ofInt]; simp [Int.bmod]; omega
  have h1 : (x.srem (BitVec.ofInt 64 m)).toInt = -(-x.toInt % m) := by
    rw [BitVec.toInt_srem, em]
    have := neg_tmod (-x.toInt) (by omega) m hm.1
    rwa [Int.neg_neg] at this
  have hb := Int.emod_lt_of_pos (-x.toInt) hm.1
  have hb0 := Int.emod_nonneg (-x.toInt) (b := m) (by omega)
  have hq1 : 0 ≤ -x.toInt % m / n := Int.ediv_nonneg hb0 (by omega)
  have hq2 : -x.toInt % m / n ≤ -x.toInt % m := Int.ediv_le_self _ hb0
  rw [BitVec.toInt_sdiv, h1, en, neg_tdiv _ hb0]
  simp [Int.bmod]; omega

theorem sec_lower (t : Time) : -9223372036854775808 ≤ t.sec.toInt := by
  have := t.sec.le_toInt
  simpa using this

theorem shl1_neg (w : Nat) (n : I64) (h : n.toInt < 0) : shl1 w n = none := by
  have : n.slt 0#64 = true := by rw [BitVec.slt_iff_toInt_lt]; simpa using h
  simp [shl1, this]

theorem shl1_pos (w : Nat) (n : I64) (k : Nat) (h : n.toInt = k) : shl1 w n = some (1#w <<< k) := by
  have h1 : n.slt 0#64 = false := by
    rw [Bool.eq_false_iff]; intro e; rw [BitVec.slt_iff_toInt_lt] at e; simp at e; omega
  have h2 : n.toNat = k := by
    have := n.isLt
    rw [BitVec.toInt_eq_toNat_cond] at h
    split at h <;> omega
  simp [shl1, h1, h2]

/-- **C187** violated for every time before the epoch: with `s` seconds before it, the reported day is Thursday less the whole days of `s` in its week, and from
four such days on the code panics. It is the true weekday (the day number counted from Monday) exactly for midnights up to three days of the week back. -/
theorem C187_before_epoch_any_violated (t : Time) (h : t.sec.toInt < 0) :
    (t.weekdays = if -t.sec.toInt % 604800 / 86400 ≤ 3 then some (weekdaysConst (3 - -t.sec.toInt % 604800 / 86400).toNat) else none) ∧
    (t.weekdays = some (weekdaysConst ((t.sec.toInt / 86400 + 3) % 7).toNat) ↔
      -t.sec.toInt % 86400 = 0 ∧ -t.sec.toInt % 604800 / 86400 ≤ 3) := by
  have hq := toInt_quot t.sec 604800 86400 (by decide) (by decide) h
  have lo := sec_lower t
  have hr0 := Int.emod_nonneg (-t.sec.toInt) (b := 604800) (by decide)
  have hr1 := Int.emod_lt_of_pos (-t.sec.toInt) (b := 604800) (by decide)
  have e : t.weekdays = if -t.sec.toInt % 604800 / 86400 ≤ 3 then
      some (weekdaysConst (3 - -t.sec.toInt % 604800 / 86400).toNat) else none := by
    unfold Time.weekdays
    change shl1 8 (if ((t.sec.srem (BitVec.ofInt 64 604800)).sdiv (BitVec.ofInt 64 86400)).slt 4#64 then
      (t.sec.srem (BitVec.ofInt 64 604800)).sdiv (BitVec.ofInt 64 86400) + 3#64
      else (t.sec.srem (BitVec.ofInt 64 604800)).sdiv (BitVec.ofInt 64 86400) - 4#64) = _
    generalize (t.sec.srem (BitVec.ofInt 64 604800)).sdiv (BitVec.ofInt 64 86400) = w at hq
    have hlt : w.slt 4#64 = true := by
      rw [BitVec.slt_iff_toInt_lt, hq]
      change _ < (4 : Int)
      omega
    rw [if_pos hlt]
    have hadd : (w + 3#64).toInt = 3 - -t.sec.toInt % 604800 / 86400 := by
      rw [BitVec.toInt_add, hq]
      change (_ + 3 : Int).bmod _ = _
      simp [Int.bmod]; omega
    split
    · rename_i hd
      exact shl1_pos 8 _ _ (by rw [hadd]; omega)
    · rename_i hd
      exact shl1_neg 8 _ (by rw [hadd]; omega)
  refine ⟨e, ?_⟩
  rw [e]
  have inj : ∀ a < 7, ∀ b < 7, (some (weekdaysConst a) = some (weekdaysConst b) ↔ a = b) := by decide +kernel
  by_cases hd : -t.sec.toInt % 604800 / 86400 ≤ 3
  · rw [if_pos hd, inj _ (by omega) _ (by omega)]
    omega
  · rw [if_neg hd]
    simp [hd]

example := C187_before_epoch_any_violated ⟨BitVec.ofInt 64 (-4 * 86400 - 7), 0#32⟩ (by decide +kernel)

/-- **C187** violated for the hour of every time before the epoch: the code panics, except within one hour after a midnight's mirror image: there it reports hour zero,
which is right only at midnight itself. -/
theorem C187_hour_before_epoch_violated (t : Time) (h : t.sec.toInt < 0) :
    (t.dayHours = if -t.sec.toInt % 86400 < 3600 then some 1#32 else none) ∧
    (t.dayHours = some (1#32 <<< (t.sec.toInt % 86400 / 3600).toNat) ↔ t.sec.toInt % 86400 = 0) := by
  have hq := toInt_quot t.sec 86400 3600 (by decide) (by decide) h
  have lo := sec_lower t
  have e : t.dayHours = if -t.sec.toInt % 86400 < 3600 then some 1#32 else none := by
    unfold Time.dayHours
    change shl1 32 ((t.sec.srem (BitVec.ofInt 64 86400)).sdiv (BitVec.ofInt 64 3600)) = _
    generalize (t.sec.srem (BitVec.ofInt 64 86400)).sdiv (BitVec.ofInt 64 3600) = w at hq
    split
    · exact shl1_pos 32 _ 0 (by rw [hq]; omega)
    · exact shl1_neg 32 _ (by rw [hq]; omega)
  refine ⟨e, ?_⟩
  rw [e]
  have inj : ∀ b < 24, (some 1#32 = some (1#32 <<< b) ↔ b = 0) := by decide +kernel
  by_cases hd : -t.sec.toInt % 86400 < 3600
  · rw [if_pos hd, inj _ (by omega)]
    omega
  · rw [if_neg hd]
    simp; omega

example : (⟨BitVec.ofInt 64 (-1), 0#32⟩ : Time).weekdays = some (weekdaysConst 3) ∧
    (⟨BitVec.ofInt 64 (-4 * 86400), 0#32⟩ : Time).weekdays = none ∧
    (⟨BitVec.ofInt 64 (-1), 0#32⟩ : Time).dayHours = some 1#32 := by decide +kernel

end Memar.Time

namespace Memar.Identifier
open Memar Binary.Spec

/-- **C188** violated every 256 seconds: whatever the variables held and whatever the random bytes are, an identifier made in a second whose number
ends in the byte 255 sorts after one made a second later. -/
theorem C188_incremental_any_violated (old old' rnd rnd' : Bytes) (h1 : old.length = 16) (h2 : old'.length = 16)
    (h3 : rnd.length = 4) (h4 : rnd'.length = 4) (now later : Time.Time) (hs : now.sec.toNat % 256 = 255)
    (hl : later.sec.toNat = now.sec.toNat + 1) :
    ∃ u v, U16B.new old rnd now = some u ∧ U16B.new old' rnd' later = some v ∧ byteLt v u = true := by
  have key : ∀ (old rnd : Bytes) (t : Time.Time), old.length = 16 → rnd.length = 4 →
      ∃ r, U16B.new old rnd t = some (BitVec.ofNat 8 t.sec.toNat :: r) := by
    intro old rnd t ho hr
    obtain ⟨x, y, hx, hy, hr'⟩ := read12 old rnd (by omega)
    rw [goCopy_full _ _ (by simp; omega)] at hr'
    refine ⟨leDigits 7 (t.sec.toNat / 256) ++ leDigits 4 t.nsec.toNat ++ rnd, ?_⟩
    rw [U16B.new, hr']
    exact stamp x y rnd hx hy t
  obtain ⟨a, ha⟩ := key old rnd now h1 h3
  obtain ⟨b, hb⟩ := key old' rnd' later h2 h4
  refine ⟨_, _, ha, hb, ?_⟩
  have e1 : BitVec.ofNat 8 now.sec.toNat = 255#8 := by
    apply BitVec.eq_of_toNat_eq; rw [BitVec.toNat_ofNat]; simpa using hs
  have e2 : BitVec.ofNat 8 later.sec.toNat = 0#8 := by
    apply BitVec.eq_of_toNat_eq; rw [BitVec.toNat_ofNat, hl]; simp; omega
  rw [e1, e2]
  simp [byteLt, List.lex]

example : (⟨255#64, 0#32⟩ : Time.Time).sec.toNat % 256 = 255 ∧
    (⟨256#64, 0#32⟩ : Time.Time).sec.toNat = (⟨255#64, 0#32⟩ : Time.Time).sec.toNat + 1 := by decide

end Memar.Identifier

namespace Memar.Timer.Queue
open Memar

/-- **C200** violated for every `Tick` on a timer that is already started: it answers with an error, and the running timer has the new period from then on. -/
theorem C200_failed_tick_any_violated (tg : Tg) (t : Nat) (first interval now : Int) (h1 : 1 ≤ first) (h2 : 1 ≤ interval)
    (hs : (tg.tm t).status ≠ .unset ∨ (tg.tm t).timing = true) :
    ∃ tg', Queue.tick tg t first interval now = .ok (tg', some .alreadyStarted) ∧
      (tg'.tm t).period = interval ∧ (tg'.tm t).status = (tg.tm t).status ∧ (tg'.tm t).when = (tg.tm t).when ∧
      tg'.heap = tg.heap ∧ ∀ u, u ≠ t → tg'.tm u = tg.tm u := by
  refine ⟨tg.setPeriod t interval, ?_, ?_, ?_, ?_, rfl, ?_⟩
  · unfold Queue.tick Queue.start
    rw [if_neg (by omega), if_neg (by omega), if_pos]
    simpa [Tg.setPeriod] using hs
  · simp [Tg.setPeriod]
  · simp [Tg.setPeriod]
  · simp [Tg.setPeriod]
  · intro u hu; simp [Tg.setPeriod, hu]

example : ∃ tg, runCalls [.start 1 10 0] Tg.init = .ok tg ∧ decide ((tg.tm 1).status ≠ .unset) = true :=
  ends_elim (by decide +kernel)

end Memar.Timer.Queue

namespace Memar.Pool

/-- **C201** violated in every state where the newest idle slot is an empty one, as all slots are after a cleaning: at the limit of items `Get` returns nil,
whatever items the other idle slots and the slots of the last cleaning hold. -/
theorem C201_idle_item_withheld_any_violated {w : World} {i : Nat} {u : User}
    (hrun : w.p.state = .running) (hu : w.users[i]? = some u) (hpc : u.pc = .out)
    (hhot : w.p.hotItem = none) (hidle : w.p.idleItems.getLast? = some none)
    (hmax : w.p.hasNew = false ∨ ¬ w.p.itemsCount + 1 ≤ w.p.maxItems) :
    (run w (getCall i)).log = w.log ++ [.got i none] ∧ (run w (getCall i)).p.victimItems = w.p.victimItems := by
  have hlen := (List.getElem?_eq_some_iff.1 hu).1
  have hs := not_isStop hrun
  have hp : popHead w.p = (none, { w.p with idleItems := w.p.idleItems.dropLast }) := by
    simp [popHead, hhot, hidle]
  have e1 : step w (.get i) = { w with users := w.users.set i ⟨u.held, .getPop⟩ } := by
    simp [step, startGet, hu, hpc, hs]
  simp only [run, getCall, List.foldl_cons, List.foldl_nil]
  rw [e1]
  by_cases hn : w.p.hasNew = true
  · rcases hmax with hm | hm
    · rw [hn] at hm; cases hm
    · simp [step, userStep, hlen, hp, hn, hm]
  · simp [step, userStep, hlen, hp, hn]

example : ∃ w, Reaches 4 true 1 starve w ∧ w.p.state = .running ∧ w.p.hotItem = none ∧ w.p.idleItems.getLast? = some none ∧
    w.p.itemsCount = 4 ∧ some 1 ∈ w.p.victimItems :=
  ⟨_, ⟨four, four_init, rfl⟩, by decide +kernel, by decide +kernel, by decide +kernel, by decide +kernel, by decide +kernel⟩

end Memar.Pool

namespace Memar.Registry.ErrorValue
open Memar

/-- **C79**: for every depth of wrapping, the error given back is the cause it was wrapped with last. -/
theorem C79_chain_deep_past (e : Error) (cs : List Error) (c : Error) :
    pastChain ((cs ++ [c]).foldl (fun x c => newChain x (some c)) (some e)) = some c := by
  rw [List.foldl_append]
  have : ∀ (cs : List Error) (e : Error), ∃ a, cs.foldl (fun x c => newChain x (some c)) (some e) = some a := by
    intro cs
    induction cs with
    | nil => intro e; exact ⟨e, rfl⟩
    | cons c cs ih => intro e; exact ih _
  obtain ⟨a, ha⟩ := this cs e
  rw [ha]
  rfl

example (e c1 c2 : Error) : pastChain (newChain (newChain (some e) (some c1)) (some c2)) = some c2 :=
  C79_chain_deep_past e [c1] c2

end Memar.Registry.ErrorValue

