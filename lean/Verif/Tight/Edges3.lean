import Verif.Tight.Times
import Verif.Tight.Texts
import Verif.Tight.Replace
import Verif.Tight.Paths
import Verif.Time.WholeProps
import Verif.Time.ClockProps
import Verif.Uri.User
import Verif.Http.ServicesProps
import Verif.Http.ExchangeProps
import Verif.Identifier.RfcProps
import Verif.Identifier.TextProps
import Verif.Event.Props
import Verif.Math.Props
import Verif.Www.Languages
import Verif.Compress.Types

/-!
# Where properties that are violated do hold: times, addresses, identifiers, hosts and callbacks

The `_violated` theorems of these properties say what goes wrong. The theorems here say exactly when it does not.
-/

namespace Memar.Time

/-- **C253**, the part that holds: seconds and nanoseconds whose sum fits into 64 bits are turned into exactly that many nanoseconds.
Missing: an error for those that do not fit. -/
theorem C253_fits_partial (sec : I64) (nsec : I32) (h1 : -9223372036854775808 ≤ sec.toInt * 1000000000 + nsec.toInt)
    (h2 : sec.toInt * 1000000000 + nsec.toInt < 9223372036854775808) :
    (fromSecAndNano sec nsec).toInt = sec.toInt * 1000000000 + nsec.toInt :=
  (C253_overflow_any_violated sec nsec).2.2 ⟨h1, h2⟩

example := C253_fits_partial 1700000000#64 999999999#32 (by decide) (by decide)

/-- The schedule of a thread that reads the time, and later stores what it read plus `e`, while others do `others` in between. -/
def readThenStore (v e : I64) (others : List (Nat × AtomicOp)) : List (Nat × AtomicOp) :=
  (0, .load) :: others ++ [(0, .store (v + e))]

theorem atomicRun_append (a b : List (Nat × AtomicOp)) (v : I64) :
    (atomicRun (a ++ b) v).1 = (atomicRun b (atomicRun a v).1).1 := by
  induction a generalizing v with
  | nil => rfl
  | cons x a ih => obtain ⟨i, op⟩ := x; simp only [List.cons_append, atomicRun]; exact ih _

/-- **C248**, the part that holds: whatever the others do between the read and the store, the time ends at what was read plus the
addition. That is the right time if and only if the others leave the time as it was. Missing: nothing of theirs being lost when they change it. -/
theorem C248_alone_partial (v e : I64) (others : List (Nat × AtomicOp)) :
    (atomicRun (readThenStore v e others) v).1 = v + e ∧
    ((atomicRun (readThenStore v e others) v).1 = (atomicRun others v).1 + e ↔ (atomicRun others v).1 = v) := by
  have h : (atomicRun (readThenStore v e others) v).1 = v + e := by
    rw [readThenStore, atomicRun_append]; rfl
  refine ⟨h, ?_⟩
  rw [h, BitVec.add_left_inj]
  exact eq_comm

example : (atomicRun (readThenStore 5#64 2#64 [(1, .add 3#64), (2, .load), (1, .add (-3#64))]) 5#64).1 = 7#64 := by decide

/-- **C247**, the part that holds: of the current time the elapsed minutes, hours, days, weeks, months of 30 days and tropical years are those
since the Unix epoch. Missing: the calendar year, the epoch that is documented, and local time. -/
theorem C247_since_unix_epoch_partial (sec : I64) (nsec : I32) (h0 : 0 ≤ sec.toInt) :
    (utcNow sec nsec).minuteElapsed.toInt = sec.toInt / 60 ∧ (utcNow sec nsec).hourElapsed.toInt = sec.toInt / 3600 ∧
    (utcNow sec nsec).dayElapsed.toInt = sec.toInt / 86400 ∧ (utcNow sec nsec).weekElapsed.toInt = sec.toInt / (7 * 86400) ∧
    (utcNow sec nsec).monthElapsed.toInt = sec.toInt / (30 * 86400) ∧
    (utcNow sec nsec).tropicalYearElapsed.toInt = sec.toInt / 31556926 := by
  have e : (utcNow sec nsec).sec = sec := rfl
  refine ⟨?_, ?_, ?_, ?_, ?_, ?_⟩
  · rw [Time.minuteElapsed, e, toInt_sdiv_pos _ _ h0 (by decide)]; rfl
  · rw [Time.hourElapsed, e, toInt_sdiv_pos _ _ h0 (by decide)]; rfl
  · rw [Time.dayElapsed, e, toInt_sdiv_pos _ _ h0 (by decide)]; rfl
  · rw [Time.weekElapsed, e, toInt_sdiv_pos _ _ h0 (by decide)]; rfl
  · rw [Time.monthElapsed, e, toInt_sdiv_pos _ _ h0 (by decide)]; rfl
  · rw [Time.tropicalYearElapsed, e, toInt_sdiv_pos _ _ h0 (by decide)]; rfl

example := C247_since_unix_epoch_partial 1700000000#64 5#32 (by decide)

end Memar.Time

namespace Memar.Time.Earth
open WSpec

theorem whole_small (d n k : Int) (hk : 0 < k) (h : Whole d k n) :
    Whole d (k * second) n ↔ -k < d ∧ d < k := by
  unfold second
  constructor
  · intro hw
    rcases Int.le_total 0 d with hd | hd
    · obtain ⟨a, b⟩ := h.1 hd
      obtain ⟨a', b'⟩ := hw.1 hd
      refine ⟨by omega, ?_⟩
      have hn : ¬ 1 ≤ n := by
        intro hn
        have : (n + 1) * k ≤ n * (k * 1000000000) := by
          have h2 : n * (k * 1000000000) = (n * k) * 1000000000 := by rw [Int.mul_assoc]
          have h3 : (n + 1) * k = n * k + k := by rw [Int.add_mul, Int.one_mul]
          have h4 : k ≤ n * k := by
            calc k = 1 * k := (Int.one_mul k).symm
              _ ≤ n * k := Int.mul_le_mul_of_nonneg_right hn (by omega)
          omega
        omega
      have h5 : (n + 1) * k ≤ k := by
        calc (n + 1) * k ≤ 1 * k := Int.mul_le_mul_of_nonneg_right (by omega) (by omega)
          _ = k := Int.one_mul k
      omega
    · obtain ⟨a, b⟩ := h.2 hd
      obtain ⟨a', b'⟩ := hw.2 hd
      refine ⟨?_, by omega⟩
      have hn : ¬ n ≤ -1 := by
        intro hn
        have : n * (k * 1000000000) ≤ (n - 1) * k := by
          have h2 : n * (k * 1000000000) = (n * k) * 1000000000 := by rw [Int.mul_assoc]
          have h3 : (n - 1) * k = n * k - k := by rw [Int.sub_mul, Int.one_mul]
          have h4 : n * k ≤ -k := by
            calc n * k ≤ -1 * k := Int.mul_le_mul_of_nonneg_right hn (by omega)
              _ = -k := by omega
          omega
        omega
      have h5 : -k ≤ (n - 1) * k := by
        calc -k = (-1) * k := by omega
          _ ≤ (n - 1) * k := Int.mul_le_mul_of_nonneg_right (by omega) (by omega)
      omega
  · rintro ⟨h1, h2⟩
    have hn : n = 0 := by
      rcases Int.lt_trichotomy n 0 with h0 | h0 | h0
      · have h4 : n * k ≤ -k := by
          calc n * k ≤ -1 * k := Int.mul_le_mul_of_nonneg_right (by omega) (by omega)
            _ = -k := by omega
        rcases Int.le_total 0 d with hd | hd
        · obtain ⟨_, b⟩ := h.1 hd
          have h3 : (n + 1) * k = n * k + k := by rw [Int.add_mul, Int.one_mul]
          omega
        · obtain ⟨a, _⟩ := h.2 hd
          omega
      · exact h0
      · have h4 : k ≤ n * k := by
          calc k = 1 * k := (Int.one_mul k).symm
            _ ≤ n * k := Int.mul_le_mul_of_nonneg_right (by omega) (by omega)
        rcases Int.le_total 0 d with hd | hd
        · obtain ⟨a, _⟩ := h.1 hd
          omega
        · obtain ⟨_, b⟩ := h.2 hd
          have h3 : (n - 1) * k = n * k - k := by rw [Int.sub_mul, Int.one_mul]
          omega
    subst hn
    exact ⟨fun _ => by omega, fun _ => by omega⟩

/-- **C239**, the part that holds: a duration in nanoseconds is turned into its whole minutes, hours, days or weeks exactly when it is
shorter than 60, 3600, 86400 or 604800 nanoseconds; then that is none. Missing: every longer duration. -/
theorem C239_short_partial (d : I64) :
    (Whole d.toInt (minute * second) (minuteFromNano d).toInt ↔ -minute < d.toInt ∧ d.toInt < minute) ∧
    (Whole d.toInt (hour * second) (hourFromNano d).toInt ↔ -hour < d.toInt ∧ d.toInt < hour) ∧
    (Whole d.toInt (day * second) (dayFromNano d).toInt ↔ -day < d.toInt ∧ d.toInt < day) ∧
    (Whole d.toInt (week * second) (weekFromNano d).toInt ↔ -week < d.toInt ∧ d.toInt < week) := by
  obtain ⟨h1, h2, h3, h4⟩ := C239_nano_violated d
  exact ⟨whole_small _ _ _ (by decide) h1, whole_small _ _ _ (by decide) h2, whole_small _ _ _ (by decide) h3,
    whole_small _ _ _ (by decide) h4⟩

example : ¬ Whole 60 (minute * second) (minuteFromNano 60#64).toInt := fun h => absurd ((C239_short_partial 60#64).1.1 h).2 (by decide)

end Memar.Time.Earth

namespace Memar.Uri
open Memar USpec

/-- **C240**, the part that holds: setting a name, a password or a whole text keeps consistent user information consistent exactly when
the name or the password is the one that was there, or when the text has them as its parts. Missing: the other texts following what is set. -/
theorem C240_unchanged_partial (u : UserInformation) (h : Consistent u) (x : Bytes) :
    (Consistent (u.setUsername x) ↔ x = u.username) ∧ (Consistent (u.setPassword x) ↔ x = u.password) ∧
    (Consistent (u.setUserinfo x) ↔ (UserInformation.init x).username = u.username ∧ (UserInformation.init x).password = u.password) := by
  obtain ⟨h1, h2, h3⟩ := C240_set_violated u h x
  refine ⟨⟨fun c => Decidable.byContradiction fun n => h1 n c, ?_⟩, ⟨fun c => Decidable.byContradiction fun n => h2 n c, ?_⟩, ?_, ?_⟩
  · rintro rfl; exact h
  · rintro rfl; exact h
  · intro c
    exact ⟨Decidable.byContradiction fun n => h3 (.inl n) c, Decidable.byContradiction fun n => h3 (.inr n) c⟩
  · rintro ⟨e1, e2⟩
    have := (C156_read u x).1
    unfold Consistent at this ⊢
    rw [e1, e2] at this
    exact this

example : Consistent (.init (bs "ab:cd")) ∧ (UserInformation.init (bs "ab")).username = bs "ab" :=
  ⟨(C156_read (.init []) _).1, by decide +kernel⟩

end Memar.Uri

namespace Memar.Http
open Memar Spec

/-- **C252**, the part that holds: a request for exactly the configured domain passes, unchanged, if and only if the domain neither starts
with a digit nor is itself `www.` and a name. Missing: those two kinds of domain. -/
theorem C252_passes_iff_partial (d : Bytes) (hd : d ≠ []) (req : Request) (res : Response) (h : req.host = d) :
    hostSupported d req res = some (true, res) ↔ ¬ NumericHost d ∧ ¬ ∃ e, e ≠ [] ∧ d = wwwOf e := by
  constructor
  · intro e
    rw [hostSupported_cases, h, if_neg hd] at e
    by_cases hn : NumericHost d
    · rw [if_pos hn] at e
      cases hp : permanentRedirect res (httpsURL d req.path req.query) <;> simp [hp] at e
    · rw [if_neg hn] at e
      refine ⟨hn, ?_⟩
      rintro ⟨f, hf, hw⟩
      have hc : 4 < d.length ∧ d.take 4 = bs "www." := by
        have : 0 < f.length := List.length_pos_iff.2 hf
        rw [hw]
        constructor
        · rw [wwwOf, List.length_append, show (bs "www.").length = 4 from by decide +kernel]; omega
        · rw [wwwOf, List.take_append_of_le_length (by decide +kernel)]; decide +kernel
      rw [if_pos hc] at e
      split at e
      · cases hp : permanentRedirect res (httpsURL d req.path req.query) <;> simp [hp] at e
      · simp at e
  · rintro ⟨h1, h2⟩
    exact C15_own_domain_passes d req res h1 h2 (.inr h)

example : ¬ NumericHost (bs "example.com") ∧ hostSupported (bs "example.com") ⟨bs "GET", bs "example.com", bs "/", []⟩ Response.init =
    some (true, Response.init) := by
  refine ⟨by decide +kernel, ?_⟩
  simp [hostSupported, bs, ch]

/-- **C260**, the part that holds: a request that names the host in its target is judged by that host, whatever its Host line says. A request that
names the host in its Host line alone is judged the same as that one exactly when that one is accepted as it is. Missing: refusing and redirecting by
the Host line. -/
theorem C260_named_in_target_partial (domain method : Bytes) (u v : Uri.URI) (h h' : Header) (res : Response)
    (ha : u.au.authority ≠ []) (hv : v.au.authority = []) (hh : v.au.host = []) :
    hostSupported domain (requestOf method (checkHost u h)) res = hostSupported domain (requestOf method u) res ∧
    (hostSupported domain (requestOf method (checkHost v h')) res = hostSupported domain (requestOf method (checkHost u h)) res ↔
      hostSupported domain (requestOf method u) res = some (true, res)) := by
  have e : checkHost u h = u := by unfold checkHost; rw [if_neg ha]
  rw [e, (C260_host_line_not_parsed_violated domain method v h' res hv hh).2]
  exact ⟨rfl, eq_comm⟩

example := C260_named_in_target_partial (bs "a.com") (bs "GET") { au := { authority := bs "b.com", host := bs "b.com" } } { path := bs "/x" }
  ⟨[]⟩ ⟨[(bs "Host", bs "b.com")]⟩ Response.init (by decide +kernel) rfl rfl

variable {S E : Type}

/-- **C181**, the part that holds: a service runs exactly when the method is POST and the query is the text of the identifier of a registered
service, or is no such text at all while a service is registered with identifier 0; then exactly that service runs, once. Missing: answering 400 to
queries that are no text of an identifier. -/
theorem C181_runs_iff_partial (env : Env S E) (req : Request) (res : Response) (o : Outcome S E)
    (h : mux env (idFromString env) req res = some o) (s : S) :
    (s ∈ o.ran ↔ o.ran = [s]) ∧
    (o.ran = [s] ↔ req.method = bs "POST" ∧
      ((∃ id, env.base64RawURL req.query = some (some id) ∧ env.getServiceByID id = .ok s) ∨
        (env.base64RawURL req.query = some none ∧ env.getServiceByID 0 = .ok s))) := by
  obtain ⟨h1, h2⟩ := C16_dispatch_iff env (idFromString env) req res o h s
  refine ⟨h1, h2.trans (and_congr Iff.rfl ?_)⟩
  unfold idFromString
  rcases env.base64RawURL req.query with _ | _ | id
  · simp
  · simp
  · simp

example := C181_runs_iff_partial demoEnv ⟨bs "POST", [], bs "/s", bs "BQAAAAAAAAA"⟩ Response.init _
  (Option.some_get (show (mux demoEnv (idFromString demoEnv) ⟨bs "POST", [], bs "/s", bs "BQAAAAAAAAA"⟩ Response.init).isSome
    by decide +kernel)).symm 7

end Memar.Http

namespace Memar.Chapar
open Memar

/-- **C281**, the part that holds: a path variable gives back the path that was set exactly when it has at most 255 hops, and writing the path
to a frame writes all of it exactly when the frame has room for it. Missing: an error in the other cases. -/
theorem C281_kept_iff_partial (p : Path) (s frame : Bytes) (hp : p.path.length = 255) :
    ((p.set s).get = some s ↔ s.length ≤ 255) ∧
    (p.get = some s → 3 ≤ frame.length →
      (p.marshalTo frame = some (frame.take 3 ++ s ++ frame.drop (3 + s.length)) ↔ 3 + s.length ≤ frame.length)) := by
  refine ⟨⟨fun h => Decidable.byContradiction fun n => (C281_long_violated p s hp (by omega)).2.2 h, fun h => (C280_set_get p s hp h).1⟩, ?_⟩
  intro hg h3
  constructor
  · intro h
    apply Decidable.byContradiction
    intro n
    rw [C281_cut_violated p s frame hg h3 (by omega)] at h
    have := congrArg List.length (Option.some.inj h)
    simp only [List.length_append, List.length_take, List.length_drop] at this
    omega
  · exact C280_marshal p s frame hg

example : (Path.mk (List.replicate 255 7#8) 9#8).path.length = 255 := by decide +kernel

end Memar.Chapar

namespace Memar.Math
open Memar

/-- **C198**, the part that holds: reading the text of a signed integer gives the integer back exactly when the variable already holds
it. Missing: every other integer. -/
theorem C198_same_value_partial {w} (old v : BitVec w) : fromStringSigned old (toStringSigned v) = (v, none) ↔ old = v := by
  simp [fromStringSigned]

end Memar.Math

namespace Memar.Identifier
open Memar TSpec

/-- **C238**, the part that holds: reading the text of an identifier gives it exactly when the variable already holds it, and a random
source that fills the identifier makes it those bytes. Missing: reading, a failing source, and versions 1 and 5. -/
theorem C238_same_value_partial (enc : Bytes → Bytes) (old u rnd : Bytes) :
    (U16B.fromString old (U16B.toString enc u) = (u, false) ↔ old = u) ∧
    (U32B.fromString old (U32B.toString enc u) = (u, false) ↔ old = u) ∧
    (U8B.fromString old (U8B.toString enc u) = (u, false) ↔ old = u) ∧
    (rnd.length ≤ old.length → (U8B.newRandom old rnd = rnd ↔ rnd.length = old.length) ∧
      (U32B.newRandom old rnd = rnd ↔ rnd.length = old.length)) := by
  refine ⟨by simp [U16B.fromString], by simp [U32B.fromString], by simp [U8B.fromString], fun h => ?_⟩
  obtain ⟨h1, h2⟩ := C238_random_failure_violated old rnd h
  have key : rnd ++ old.drop rnd.length = rnd ↔ rnd.length = old.length := by
    constructor
    · intro e
      have := congrArg List.length e
      simp only [List.length_append, List.length_drop] at this
      omega
    · intro e; rw [List.drop_of_length_le (by omega), List.append_nil]
  rw [h1, h2]
  exact ⟨key, key⟩

namespace Rfc4122

/-- A hexadecimal digit. -/
def Hex (c : Byte) : Prop := (48 ≤ c.toNat ∧ c.toNat ≤ 57) ∨ (97 ≤ c.toNat ∧ c.toNat ≤ 102) ∨ (65 ≤ c.toNat ∧ c.toNat ≤ 70)

theorem fromHexChar_isSome (c : Byte) : (fromHexChar c).isSome ↔ Hex c := by
  unfold fromHexChar Hex
  simp only [BitVec.le_def, show (48#8 : Byte).toNat = 48 from rfl, show (57#8 : Byte).toNat = 57 from rfl, show (97#8 : Byte).toNat = 97 from rfl,
    show (102#8 : Byte).toNat = 102 from rfl, show (65#8 : Byte).toNat = 65 from rfl, show (70#8 : Byte).toNat = 70 from rfl]
  split
  · simp [*]
  · split
    · simp [*]
    · split
      · simp [*]
      · simp [*]

theorem hexDecode_none_iff (k : Nat) : ∀ (src dst : Bytes) (i : Nat), i + k = dst.length →
    (hexDecode dst i src = none ↔ 2 * (k + 1) ≤ src.length ∧ ∀ c ∈ src.take (2 * (k + 1)), Hex c) := by
  induction k with
  | zero =>
    intro src dst i hi
    match src with
    | [] => simp [hexDecode]
    | [_] => simp [hexDecode]
    | p :: q :: r =>
      simp only [hexDecode, show 2 * (0 + 1) = 2 from rfl, List.take_succ_cons, List.take_zero, List.length_cons]
      have hp := fromHexChar_isSome p
      have hq := fromHexChar_isSome q
      cases h1 : fromHexChar p with
      | none => simp [h1] at hp; simp [hp]
      | some a =>
        cases h2 : fromHexChar q with
        | none => simp [h2] at hq; simp [hq]
        | some b =>
          simp [h1] at hp; simp [h2] at hq
          have : setAt dst i ((a <<< 4) ||| b) = none := by rw [setAt, if_neg (by omega)]
          simp only [this, Option.bind_none]
          simp [hp, hq]
  | succ k ih =>
    intro src dst i hi
    match src with
    | [] => simp [hexDecode]
    | [_] => simp only [hexDecode, List.length_singleton]; exact ⟨(fun h => nomatch h), (fun h => absurd h.1 (by omega))⟩
    | p :: q :: r =>
      simp only [hexDecode, show 2 * (k + 1 + 1) = 2 * (k + 1) + 1 + 1 from by omega, List.take_succ_cons, List.length_cons]
      have hp := fromHexChar_isSome p
      have hq := fromHexChar_isSome q
      cases h1 : fromHexChar p with
      | none => simp [h1] at hp; simp [hp]
      | some a =>
        cases h2 : fromHexChar q with
        | none => simp [h2] at hq; simp [hq]
        | some b =>
          simp [h1] at hp; simp [h2] at hq
          have : setAt dst i ((a <<< 4) ||| b) = some (dst.set i ((a <<< 4) ||| b)) := by rw [setAt, if_pos (by omega)]
          simp only [this, Option.bind_some]
          rw [ih r (dst.set i ((a <<< 4) ||| b)) (i + 1) (by rw [List.length_set]; omega)]
          simp only [List.mem_cons, forall_eq_or_imp, hp, hq, true_and]
          constructor
          · rintro ⟨x, y⟩; exact ⟨by omega, y⟩
          · rintro ⟨x, y⟩; exact ⟨by omega, y⟩

theorem hexDecode_length (src : Bytes) : ∀ (dst out : Bytes) (i : Nat), hexDecode dst i src = some out → out.length = dst.length := by
  induction hn : src.length using Nat.strongRecOn generalizing src with
  | ind n ih =>
    intro dst out i h
    match src, hn with
    | [], _ => simp [hexDecode] at h; rw [h]
    | [_], _ => simp [hexDecode] at h; rw [h]
    | p :: q :: r, hn =>
      simp only [hexDecode] at h
      split at h
      · obtain ⟨d, hd, h⟩ := Option.bind_eq_some_iff.1 h
        have := ih r.length (by simp at hn; omega) r rfl d out _ h
        rw [setAt] at hd
        split at hd
        · cases hd; simpa using this
        · cases hd
      · cases h; rfl

/-- One part that has room for all of its text. -/
theorem decodePart_some (u text : Bytes) (a b i j : Nat) (hab : a ≤ b) (hb : b ≤ u.length) (hij : i ≤ j) (hj : j ≤ text.length)
    (hr : j - i < 2 * (b - a + 1)) : ∃ v, decodePart u a b text i j = some v ∧ v.length = u.length := by
  have hs : slice text i j = some ((text.take j).drop i) := by rw [slice, if_pos ⟨hij, hj⟩]
  have hu : slice u a b = some ((u.take b).drop a) := by rw [slice, if_pos ⟨hab, hb⟩]
  have hl : ((text.take j).drop i).length = j - i := by rw [List.length_drop, List.length_take]; omega
  have hl' : ((u.take b).drop a).length = b - a := by rw [List.length_drop, List.length_take]; omega
  rw [decodePart, hs, Option.bind_some, onSlice, hu, Option.bind_some]
  cases hd : hexDecode ((u.take b).drop a) 0 ((text.take j).drop i) with
  | none => exact absurd ((hexDecode_none_iff (b - a) _ _ 0 (by omega)).1 hd).1 (by omega)
  | some out =>
    refine ⟨_, rfl, ?_⟩
    have := hexDecode_length _ _ _ _ hd
    simp only [List.length_append, List.length_take, List.length_drop]
    omega

/-- **C254**, the part that holds: reading the text of an identifier gives the identifier exactly when the variable already holds it. Reading any
text of at least 24 characters leaves the variable as it was without a panic, except when from position 24 on there are 14 hexadecimal digits or
more. Missing: reading any other identifier, and an error instead of a panic. -/
theorem C254_parse_exact_partial (old : Bytes) (hold : old.length = 16) :
    (∀ u, u.length = 16 → ((toString u).bind (fromString old) = some u ↔ old = u)) ∧
    (∀ text, fromString old text = some old ↔
      24 ≤ text.length ∧ ¬ (38 ≤ text.length ∧ ∀ c ∈ (text.drop 24).take 14, Hex c)) := by
  refine ⟨fun u hu => by rw [C254_parse_canonical_violated old u hold hu]; simp, fun text => ?_⟩
  by_cases ht : text.length < 24
  · rw [C254_parse_short_violated old text ht]
    simp; omega
  · obtain ⟨u1, e1, l1⟩ := decodePart_some old text 0 4 0 8 (by omega) (by omega) (by omega) (by omega) (by omega)
    obtain ⟨u2, e2, l2⟩ := decodePart_some u1 text 4 6 9 13 (by omega) (by omega) (by omega) (by omega) (by omega)
    obtain ⟨u3, e3, l3⟩ := decodePart_some u2 text 6 8 14 18 (by omega) (by omega) (by omega) (by omega) (by omega)
    obtain ⟨u4, e4, l4⟩ := decodePart_some u3 text 8 10 19 23 (by omega) (by omega) (by omega) (by omega) (by omega)
    have key : decodePart u4 10 16 text 24 text.length = none ↔ 38 ≤ text.length ∧ ∀ c ∈ (text.drop 24).take 14, Hex c := by
      have hs : slice text 24 text.length = some (text.drop 24) := by
        rw [slice, if_pos ⟨by omega, Nat.le_refl _⟩, List.take_length]
      have hu : slice u4 10 16 = some ((u4.take 16).drop 10) := by rw [slice, if_pos ⟨by omega, by omega⟩]
      rw [decodePart, hs, Option.bind_some, onSlice, hu, Option.bind_some, Option.map_eq_none_iff,
        hexDecode_none_iff 6 _ _ 0 (by simp; omega), List.length_drop]
      constructor
      · rintro ⟨x, y⟩; exact ⟨by omega, y⟩
      · rintro ⟨x, y⟩; exact ⟨by omega, y⟩
    have hf : fromStringLocal old text = decodePart u4 10 16 text 24 text.length := by
      simp only [fromStringLocal, Option.bind_eq_bind, e1, e2, e3, e4, Option.bind_some]
    rw [fromString, hf]
    cases hd : decodePart u4 10 16 text 24 text.length with
    | none => simp only [Option.map_none]; rw [hd] at key; simp at key; simp; exact fun _ => key
    | some v => rw [hd] at key; simp at key; simp; exact ⟨by omega, key⟩

example : fromString (List.replicate 16 9#8) (bs "123e4567-e89b-12d3-a456-42661417400000") = none ∧
    fromString (List.replicate 16 9#8) (bs "123e4567-e89b-12d3-a456-4266141740000") = some (List.replicate 16 9#8) := by decide +kernel

end Rfc4122
end Memar.Identifier

namespace Memar.Event
open Memar
variable {Cb Opt Ev : Type} [DecidableEq Cb]

/-- **C256**, the part that holds: goroutines that use a target are stuck, all of them, only when one of them is in a callback that
calls the target it was called by. In every other state, if one of them is not done, one of them can go on. Missing: a callback that calls its
target. -/
theorem C256_stuck_iff_partial (handler : Cb → List (Op Cb Opt Ev)) (progs : Nat → List (Op Cb Opt Ev)) (sched : List Nat)
    (s : Sys Cb Opt Ev) (h : exec handler sched (start progs) = some s) (t : Nat) (ht : s.threads t ≠ [])
    (hs : ∀ u, step handler u s = none) :
    ∃ u op r e todo k, s.threads u = .prog (op :: r) :: .calling e todo :: k ∧ s.lock = some u := by
  obtain ⟨log, hi⟩ := inv_exec _ progs sched _ s [] (inv_start _ progs) h
  cases hl : s.lock with
  | none =>
    rcases hi.free t (by rw [hl]; simp) with ⟨h1, _⟩ | ⟨ops, h1, _⟩
    · exact absurd h1 ht
    · have := hs t
      cases ops with
      | nil => rw [step, h1] at this; simp at this
      | cons op rest => rw [step, h1] at this; simp [hl] at this
  | some u =>
    have hu := hs u
    rcases hi.locked u hl with ⟨op, rest, h1, _⟩ | ⟨e, todo, rest, h1 | ⟨c, h1⟩, _⟩
    · cases op <;> (rw [step, h1] at hu; simp at hu)
    · cases todo <;> (rw [step, h1] at hu; simp at hu)
    · cases hc : handler c with
      | nil => rw [step, h1, hc] at hu; simp at hu
      | cons op r => exact ⟨u, op, r, e, todo, _, by rw [h1, hc], rfl⟩

/-- Such a state: a listener that removes itself when called, in the only goroutine. -/
example : ∃ s, exec (fun c => [Op.remove c]) [0, 0, 0, 0, 0]
    (start (Cb := Nat) (Opt := Unit) (Ev := Nat) fun t => if t = 0 then [.add 7 (), .dispatch 5] else []) = some s ∧
    s.threads 0 ≠ [] ∧ step (fun c => [Op.remove c]) 0 s = none := ⟨_, rfl, by simp [setThread], rfl⟩

end Memar.Event

namespace Memar.Www
open Memar

/-- **C245**, the part that holds for reloading: as long as there are lines to read, every round does what its line says, one for each line in
order: it updates exactly when the line is `R` or `r`. Missing: the end of the input. -/
theorem C245_rounds_partial (words : List Bytes) (n : Nat) (hn : n ≤ words.length) :
    (rounds n words).length = n ∧
    ∀ i (hi : i < n), (rounds n words)[i]? = some (if words[i] = bs "R" ∨ words[i] = bs "r" then .updated else .warned) := by
  induction n generalizing words with
  | zero => exact ⟨rfl, fun i hi => absurd hi (by omega)⟩
  | succ n ih =>
    cases words with
    | nil => simp at hn
    | cons w r =>
      obtain ⟨h1, h2⟩ := ih r (by simpa using hn)
      refine ⟨by simp [rounds, h1], ?_⟩
      intro i hi
      cases i with
      | zero => rfl
      | succ i =>
        simp only [rounds, List.getElem?_cons_succ, List.getElem_cons_succ]
        exact h2 i (by omega)

example : rounds 3 [bs "R", bs "x", bs "r", bs "q"] = [.updated, .warned, .updated] := by decide +kernel

end Memar.Www

namespace Memar.Os
open Memar

namespace RSpec

/-- Each place lies in the file and is to be replaced by as many bytes as it has. -/
def SameSize (len : Nat) (rs : List ReplaceReq) : Prop :=
  ∀ r ∈ rs, 0 ≤ r.start ∧ r.start ≤ r.stop ∧ r.stop ≤ len ∧ (r.data.length : Int) = r.stop - r.start

/-- No two places have a byte in common; their order does not matter. -/
def Apart (rs : List ReplaceReq) : Prop := rs.Pairwise fun r s => r.stop ≤ s.start ∨ s.stop ≤ r.start

end RSpec
open RSpec

theorem replaceOne_same (junk : Nat → Byte) (f d : Bytes) (i j : Nat) (h1 : i ≤ j) (h2 : j ≤ f.length) :
    replaceOne junk f d (i : Int) (j : Int) = some (f.take i ++ d ++ f.drop j) := by
  have e := replaceOne_eq junk (f.take i) ((f.take j).drop i) (f.drop j) d
  have ha : f.take i ++ (f.take j).drop i ++ f.drop j = f := by
    have : f.take i = (f.take j).take i := by rw [List.take_take]; congr 1; omega
    rw [this, List.take_append_drop, List.take_append_drop]
  have hb : ((f.take i).length : Int) = i := by rw [List.length_take]; omega
  have hc : ((f.take i).length + ((f.take j).drop i).length : Int) = j := by
    rw [List.length_drop, List.length_take, List.length_take]; omega
  rw [ha, hc, hb] at e
  exact e

theorem replaceLoop_same (junk : Nat → Nat → Byte) (rs : List ReplaceReq) : ∀ (n : Nat) (f : Bytes), SameSize f.length rs → Apart rs →
    ∃ out, replaceLoop junk n 0 f rs = some out ∧ out.length = f.length ∧
      (∀ r ∈ rs, ∀ q, q < r.data.length → out[r.start.toNat + q]? = r.data[q]?) ∧
      (∀ p : Nat, (∀ r ∈ rs, ¬ (r.start ≤ p ∧ (p : Int) < r.stop)) → out[p]? = f[p]?) := by
  induction rs with
  | nil => intro n f _ _; exact ⟨f, rfl, rfl, (fun r hr => nomatch hr), fun _ _ => rfl⟩
  | cons r rs ih =>
    intro n f hs ha
    obtain ⟨h1, h2, h3, h4⟩ := hs r (List.mem_cons_self ..)
    obtain ⟨i, hi⟩ := Int.eq_ofNat_of_zero_le h1
    obtain ⟨j, hj⟩ := Int.eq_ofNat_of_zero_le (show 0 ≤ r.stop by omega)
    have hij : i ≤ j := by omega
    have hjl : j ≤ f.length := by omega
    have hd : r.data.length = j - i := by omega
    have hone := replaceOne_same (junk n) f r.data i j hij hjl
    have hlen : (f.take i ++ r.data ++ f.drop j).length = f.length := by
      simp only [List.length_append, List.length_take, List.length_drop]; omega
    obtain ⟨hr, ha'⟩ := List.pairwise_cons.1 ha
    obtain ⟨out, e, l, w, k⟩ := ih (n + 1) (f.take i ++ r.data ++ f.drop j)
      (by rw [hlen]; exact fun s hs' => hs s (List.mem_cons_of_mem _ hs')) ha'
    refine ⟨out, ?_, by rw [l, hlen], ?_, ?_⟩
    · rw [replaceLoop, Int.add_zero, Int.add_zero, hi, hj, hone, Option.bind_some,
        show (0 : Int) + ((r.data.length : Int) - ((j : Int) - i)) = 0 by omega]
      exact e
    · intro s hs' q hq
      rcases List.mem_cons.1 hs' with rfl | hs'
      · rw [hi, Int.toNat_natCast, k (i + q)]
        · rw [List.append_assoc, List.getElem?_append_right (by rw [List.length_take]; omega), List.length_take,
            List.getElem?_append_left (by omega)]
          congr 1; omega
        · intro t ht
          obtain ⟨t1, t2, t3, t4⟩ := hs t (List.mem_cons_of_mem _ ht)
          rcases hr t ht with h | h <;> omega
      · exact w s hs' q hq
    · intro p hp
      rw [k p fun t ht => hp t (List.mem_cons_of_mem _ ht)]
      have := hp r (List.mem_cons_self ..)
      by_cases hpi : p < i
      · rw [List.append_assoc, List.getElem?_append_left (by rw [List.length_take]; omega), List.getElem?_take_of_lt hpi]
      · have hpj : j ≤ p := by omega
        rw [List.getElem?_append_right (by rw [List.length_append, List.length_take]; omega), List.getElem?_drop]
        congr 1
        rw [List.length_append, List.length_take]; omega

/-- **C258**, the part that holds: places in the file without a byte in common, each replaced by as many bytes as it has, are replaced
rightly in whatever order they are given; all other bytes stay. Missing: places out of order when a length changes, and an error for
places outside the file. -/
theorem C258_same_size_partial (junk : Nat → Nat → Byte) (text : Bytes) (rs : List ReplaceReq) (hs : SameSize text.length rs) (ha : Apart rs) :
    ∃ out, replaceLocation junk text rs = some out ∧ out.length = text.length ∧
      (∀ r ∈ rs, ∀ q, q < r.data.length → out[r.start.toNat + q]? = r.data[q]?) ∧
      (∀ p : Nat, (∀ r ∈ rs, ¬ (r.start ≤ p ∧ (p : Int) < r.stop)) → out[p]? = text[p]?) :=
  replaceLoop_same junk rs 0 text hs ha

example : SameSize 6 [⟨bs "XY", 3, 5⟩, ⟨bs "-", 0, 1⟩] ∧ Apart [⟨bs "XY", 3, 5⟩, ⟨bs "-", 0, 1⟩] ∧
    replaceLocation (fun _ _ => 9) (bs "abcdef") [⟨bs "XY", 3, 5⟩, ⟨bs "-", 0, 1⟩] = some (bs "-bcXYf") := by
  refine ⟨?_, ?_, by decide +kernel⟩
  · unfold SameSize; decide +kernel
  · unfold Apart; decide +kernel

end Memar.Os

namespace Memar.Net.Ipv4Addr
open Memar AddrSpec

/-- **C255**, the part that holds: a text of four octets gives their address, whatever the variable held. A text of fewer octets, followed by
what is no digit, leaves the address at hand exactly when its octets are the first ones of the address that was there. Missing: an error for any
text that is no address. -/
theorem C255_octets_partial (old : Bytes) (hold : old.length = 4) :
    (∀ a0 a1 a2 a3 : Byte, fromString old (dotted a0 a1 a2 a3) = [a0, a1, a2, a3]) ∧
    (∀ good bad : Bytes, good.length < 4 → (∀ c, bad.head? = some c → ¬ (48#8 ≤ c ∧ c ≤ 57#8)) →
      (fromString old (good.flatMap (fun a => dec a.toNat ++ [ch '.']) ++ bad) = old ↔ good <+: old)) := by
  constructor
  · intro a0 a1 a2 a3
    obtain ⟨text, h1, h2⟩ := C35_roundtrip old hold a0 a1 a2 a3
    rw [C35_text] at h1
    cases h1
    exact h2
  · intro good bad hg hb
    rw [C255_bad_text_any_violated old hold good hg bad hb]
    constructor
    · intro h; exact ⟨_, h⟩
    · rintro ⟨t, rfl⟩; simp

example := (C255_octets_partial [1, 2, 3, 4] rfl).2 [1, 2] (bs "x") (by decide) (by decide +kernel)

end Memar.Net.Ipv4Addr
