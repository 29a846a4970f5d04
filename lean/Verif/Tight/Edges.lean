import Verif.Uri.QueryProps
import Verif.Http.ExchangeProps
import Verif.Os.Props2
import Verif.Time.ElapsedProps
import Verif.Registry.Props
import Verif.Tight.Numbers
import Verif.Tight.Times
import Verif.Tight.Cut

/-!
# Where the violated properties do hold

For each property the code violates, exactly the arguments and states for which it holds.
-/

namespace Memar.Uri
open Memar

/-- **C214**, the part that holds: a query can be changed, and then has the value, exactly when it was initialised.
Missing: a query that was never initialised. -/
theorem C214_initialised_partial (q : Query) (key value : Bytes) :
    ((∃ q', q.set key value = some q' ∧ q'.get key = value) ↔ q.list ≠ none) ∧
    ((∃ q', q.add key value = some q' ∧ q'.lookup key = q.lookup key ++ [value]) ↔ q.list ≠ none) := by
  cases h : q.list with
  | none => simp [Query.set, Query.add, h]
  | some m =>
    refine ⟨⟨fun _ => by simp, fun _ => ?_⟩, ⟨fun _ => by simp, fun _ => ?_⟩⟩
    · exact ⟨⟨some (m.put key [value])⟩, by simp [Query.set, h], by simp [Query.get, Query.lookup, Values.put]⟩
    · exact ⟨⟨some (m.put key ((m key).getD [] ++ [value]))⟩, by simp [Query.add, h], by simp [Query.lookup, Values.put, h]⟩

example : (⟨some fun _ => none⟩ : Query).list ≠ none := by simp

end Memar.Uri

namespace Memar.Http
open Memar Memar.Decimal

/-- **C215**, the part that holds: the age that is set is the age that is read exactly for the ages that are not
negative, and the attribute says something else than `0` exactly for the positive ones.
Missing: an age of zero, which is documented to leave the attribute out. -/
theorem C215_positive_age_partial (sc : SetCookie) (n : Int) (h : n < 2 ^ 63) :
    ((sc.setMaxAge n).getMaxAge = n ↔ 0 ≤ n) ∧
    ((sc.setMaxAge n).maxAge ≠ bs "0" ↔ 0 < n) ∧ (sc.setMaxAge n).maxAge ≠ [] := by
  by_cases hn : 0 < n
  · have e : sc.setMaxAge n = { sc with maxAge := decDigits n.toNat } := if_pos hn
    have hne : decDigits n.toNat ≠ bs "0" := by
      intro he
      have := atoi_decDigits n.toNat (by omega)
      rw [he, show atoi (bs "0") = some 0 by decide] at this
      simp at this; omega
    have h0 : decDigits n.toNat ≠ [] := by
      intro he
      have := atoi_decDigits n.toNat (by omega)
      rw [he] at this
      revert this; simp [atoi]
    rw [e]
    refine ⟨⟨fun _ => by omega, fun _ => ?_⟩, ⟨fun _ => hn, fun _ => hne⟩, h0⟩
    simp only [SetCookie.getMaxAge, atoi_decDigits n.toNat (by omega), Option.getD_some]
    omega
  · obtain ⟨h1, h2⟩ := C215_zero_age_violated sc n (by omega)
    rw [h1, h2]
    refine ⟨⟨fun e => by omega, fun e => by omega⟩, ⟨fun e => absurd rfl e, fun e => absurd e hn⟩, by decide⟩

example : ((60 : Int) < 2 ^ 63) := by decide

/-- Whether a header line states the length of a body. -/
def StatesLength (p : KV) : Bool := p.1 = bs "Content-Length" || p.1 = bs "Transfer-Encoding"

theorem keptOr_states (h : Header) (x y : Option Bytes) :
    ((keptOr h (bs "Content-Type") x ++ keptOr h (bs "Content-Encoding") y).filter StatesLength) = [] := by
  rw [List.filter_eq_nil_iff]
  have n1 : StatesLength (bs "Content-Type", []) = false := by decide +kernel
  have n2 : StatesLength (bs "Content-Encoding", []) = false := by decide +kernel
  intro p hp
  have aux : ∀ k (z : Option Bytes), p ∈ keptOr h k z → p.1 = k := by
    intro k z hz
    unfold keptOr at hz
    split at hz
    · cases hz
    · split at hz
      · cases hz
      · rw [List.mem_singleton.mp hz]
  rcases List.mem_append.mp hp with hp | hp
  · have := aux _ _ hp
    unfold StatesLength at *; rw [this]; simpa using n1
  · have := aux _ _ hp
    unfold StatesLength at *; rw [this]; simpa using n2

/-- **C217**, the part that holds: the lines of a sent response that state the length of its body are those the handler
set and one more: the length of the body, or that it is sent in chunks when there is no body or its length is zero.
So the length is stated exactly once if and only if the handler stated none.
Missing: Content-Length 0 without a body, and a length set by the handler. -/
theorem C217_stated_once_partial (version : Bytes) (r : Response) (body : Option BodyCodec) :
    ∃ r', handleOutcome version r body = some r' ∧
      r'.header.lines.filter StatesLength = r.header.lines.filter StatesLength ++
        [match body with
          | some b => if b.len > 0 then (bs "Content-Length", decDigits b.len) else (bs "Transfer-Encoding", bs "chunked")
          | none => (bs "Transfer-Encoding", bs "chunked")] ∧
      ((r'.header.lines.filter StatesLength).length = 1 ↔ ∀ p ∈ r.header.lines, StatesLength p = false) := by
  obtain ⟨r', h, _, _, _, hl⟩ := C107_sent_response version r body
  have c1 : ∀ v, StatesLength (bs "Content-Length", v) = true := fun v => by simp [StatesLength]
  have c2 : ∀ v, StatesLength (bs "Transfer-Encoding", v) = true := fun v => by simp [StatesLength]
  have e : r'.header.lines.filter StatesLength = r.header.lines.filter StatesLength ++
        [match body with
          | some b => if b.len > 0 then (bs "Content-Length", decDigits b.len) else (bs "Transfer-Encoding", bs "chunked")
          | none => (bs "Transfer-Encoding", bs "chunked")] := by
    rw [hl, List.append_assoc r.header.lines, List.filter_append, List.filter_append, keptOr_states, List.append_nil]
    congr 1
    rw [List.filter_cons, List.filter_nil, if_pos]
    · rfl
    · cases body with
      | none => exact c2 _
      | some b =>
        dsimp only
        split
        · exact c1 _
        · exact c2 _
  refine ⟨r', h, e, ?_⟩
  rw [e, List.length_append]
  have : ∀ n : Nat, n + 1 = 1 ↔ n = 0 := by omega
  simp only [List.length_singleton, this, List.length_eq_zero_iff, List.filter_eq_nil_iff, Bool.not_eq_true]

example : ∀ p ∈ Response.init.header.lines, StatesLength p = false := by decide +kernel

end Memar.Http

namespace Memar.Os
open Memar

/-- The page of a listing: at most `limit` files from `offset` on. -/
def Spec.page {α} (all : List α) (offset limit : U64) : List α := (all.drop offset.toNat).take limit.toNat

theorem page_all_iff {α} (l : List α) (o m : Nat) : l = (l.drop o).take m ↔ l = [] ∨ o = 0 ∧ l.length ≤ m := by
  constructor
  · intro h
    have := congrArg List.length h
    simp only [List.length_take, List.length_drop] at this
    by_cases hl : l = []
    · exact .inl hl
    · have : 0 < l.length := List.length_pos_iff.mpr hl
      right; omega
  · rintro (rfl | ⟨rfl, h⟩)
    · simp
    · rw [List.drop_zero, List.take_of_length_le h]

/-- **C219**, the part that holds: a listing is the page that was asked for exactly when the directory is empty, or the
page starts at the first file and has room for all of them.
Missing: every other page. -/
theorem C219_page_of_all_partial (n : DirNode) (offset limit : U64) :
    filesOf n offset limit = Spec.page (filesOf n 0 (BitVec.allOnes 64)) offset limit ↔
      n.files = [] ∨ offset = 0 ∧ n.files.length ≤ limit.toNat := by
  have h1 : filesOf n 0 (BitVec.allOnes 64) = filesOf n offset limit := rfl
  have h2 := (C219_paging_violated n offset limit).1
  rw [h1, Spec.page, page_all_iff, h2]
  have h3 : filesOf n offset limit = [] ↔ n.files = [] := by
    rw [← List.length_eq_zero_iff, h2, List.length_eq_zero_iff]
  have h4 : offset.toNat = 0 ↔ offset = 0 := by
    constructor
    · intro h; apply BitVec.eq_of_toNat_eq; simpa using h
    · rintro rfl; rfl
  rw [h3, h4]

end Memar.Os

namespace Memar.Time
open Memar

/-- **C225**, the part that holds: in the two languages the text of a set is that of its days exactly when it has at
most one day. The days of a set are the positions of its set bits, and the name of a day is its own text.
Missing: sets of several days, the eighth bit, and other languages. -/
theorem C225_single_days_partial (l : Lang) (hl : l ≠ .other) (w : BitVec 8) :
    (weekdaysString l w).toList =
      (((List.range 7).filter fun d => w.getLsbD d).flatMap fun d => (weekdaysString l (weekdaysConst d)).toList) ↔
    ((List.range 7).filter fun d => w.getLsbD d).length ≤ 1 ∧
      (w.getLsbD 7 = false ∨ ((List.range 7).filter fun d => w.getLsbD d) = []) := by
  have key : ∀ l ∈ [Lang.english, Lang.persian], ∀ w : BitVec 8,
      decide ((weekdaysString l w).toList =
      (((List.range 7).filter fun d => w.getLsbD d).flatMap fun d => (weekdaysString l (weekdaysConst d)).toList)) =
      decide (((List.range 7).filter fun d => w.getLsbD d).length ≤ 1 ∧
      (w.getLsbD 7 = false ∨ ((List.range 7).filter fun d => w.getLsbD d) = [])) := by decide +kernel
  have := key l (by cases l <;> simp_all) w
  rwa [decide_eq_decide] at this

example : Lang.persian ≠ .other := by decide

end Memar.Time

namespace Memar.Registry.Errors
open Memar

/-- **C193**, the part that holds: registering an error whose identifier is zero is refused exactly in developer mode,
and then changes nothing.
Missing: a program that does not run in developer mode. -/
theorem C193_refused_in_dev_mode_partial {α} (K : Keys α) (dev : Bool) (h : List (Op α)) (x : α) (hx : K.id x = 0#64) :
    (register K dev (run K dev h) x = (run K dev h, some .notProvideIdentifier)) ↔ dev = true := by
  cases dev with
  | true => simp [register, hx]
  | false => simp [register]

example : (Keys.mk (α := Nat) (fun n => BitVec.ofNat 64 n) (fun _ => [])).id 0 = 0#64 := rfl

end Memar.Registry.Errors

namespace Memar.Math
open Memar

/-- **C179**, the part that holds: the calculators up to a billion are exact exactly when the product fits into 64 bits,
and those of a trillion and a quadrillion, which divide by a million, exactly when the result is zero.
Missing: products that overflow, and every other result of the last two. -/
theorem C179_exact_iff_fits_partial :
    (∀ b num, ((perTen b num).toNat = num.toNat * b.toNat / 10 ↔ num.toNat * b.toNat < 2 ^ 64)) ∧
    (∀ b num, ((perCent b num).toNat = num.toNat * b.toNat / 100 ↔ num.toNat * b.toNat < 2 ^ 64)) ∧
    (∀ b num, ((perMille b num).toNat = num.toNat * b.toNat / 1000 ↔ num.toNat * b.toNat < 2 ^ 64)) ∧
    (∀ b num, ((perMyriad b num).toNat = num.toNat * b.toNat / 10000 ↔ num.toNat * b.toNat < 2 ^ 64)) ∧
    (∀ b num, ((perCentMille b num).toNat = num.toNat * b.toNat / 100000 ↔ num.toNat * b.toNat < 2 ^ 64)) ∧
    (∀ b num, ((perMillion b num).toNat = num.toNat * b.toNat / 1000000 ↔ num.toNat * b.toNat < 2 ^ 64)) ∧
    (∀ b num, ((perBillion b num).toNat = num.toNat * b.toNat / 1000000000 ↔ num.toNat * b.toNat < 2 ^ 64)) ∧
    (∀ b num, num.toNat * b.toNat < 2 ^ 64 →
      ((perTrillion b num).toNat = num.toNat * b.toNat / 1000000000000 ↔ num.toNat * b.toNat < 1000000)) ∧
    (∀ b num, num.toNat * b.toNat < 2 ^ 64 →
      ((perQuadrillion b num).toNat = num.toNat * b.toNat / 1000000000000000 ↔ num.toNat * b.toNat < 1000000)) := by
  obtain ⟨⟨w1, w2, w3, w4, w5, w6, w7⟩, hw⟩ := C179_overflow_wraps_violated
  obtain ⟨_, _, t1, t2⟩ := C179_trillion_violated
  have aux : ∀ {w} (f : BitVec w → U64 → U64) (N : Nat), PerWraps f N → 0 < N → N ≤ 2 ^ 64 → ∀ b num,
      ((f b num).toNat = num.toNat * b.toNat / N ↔ num.toNat * b.toNat < 2 ^ 64) := by
    intro w f N hf h0 h1 b num
    constructor
    · intro e
      by_cases hc : num.toNat * b.toNat < 2 ^ 64
      · exact hc
      · have := hw f N hf h0 h1 b num (by omega); omega
    · intro h; rw [hf b num, Nat.mod_eq_of_lt h]
  refine ⟨aux _ _ w1 (by decide) (by decide), aux _ _ w2 (by decide) (by decide), aux _ _ w3 (by decide) (by decide),
    aux _ _ w4 (by decide) (by decide), aux _ _ w5 (by decide) (by decide), aux _ _ w6 (by decide) (by decide),
    aux _ _ w7 (by decide) (by decide), fun b num h => ?_, fun b num h => ?_⟩
  · rw [t1 b num h]; omega
  · rw [t2 b num h]; omega

end Memar.Math

namespace Memar.Timer.Queue
open Memar

/-- **C200**, the part that holds: a `Tick` that reports an error leaves all timers as they were exactly when a duration
is not positive or the timer already has that period.
Missing: a `Tick` with good durations on a started timer of another period. -/
theorem C200_failed_tick_inert_partial (tg tg' : Tg) (t : Nat) (first interval now : Int) (e : Err)
    (h : Queue.tick tg t first interval now = .ok (tg', some e)) :
    tg' = tg ↔ (first < 1 ∨ interval < 1) ∨ (tg.tm t).period = interval := by
  unfold Queue.tick at h
  split at h
  · rename_i hd
    simp only [Out.ok.injEq, Prod.mk.injEq] at h
    exact ⟨fun _ => .inl hd, fun _ => h.1.symm⟩
  · rename_i hd
    have h' : tg' = tg.setPeriod t interval := by
      unfold Queue.start at h
      split at h
      · omega
      · split at h
        · simp only [Out.ok.injEq, Prod.mk.injEq] at h; exact h.1.symm
        · cases ha : addTimer ((((tg.setPeriod t interval).setStatus t .waiting).setWhen t (now + first)).setTiming t true) t <;>
            rw [ha] at h <;> simp [Out.bind] at h
    subst h'
    constructor
    · intro e
      right
      have := congrArg (fun x : Tg => (x.tm t).period) e
      simpa [Tg.setPeriod] using this.symm
    · rintro (hc | hp)
      · exact absurd hc hd
      · unfold Tg.setPeriod
        have : (fun u => if u = t then { tg.tm t with period := interval } else tg.tm u) = tg.tm := by
          funext u
          split
          · rename_i hu; subst hu; rw [← hp]
          · rfl
        rw [this]

example : ∃ tg, runCalls [.start 1 10 0] Tg.init = .ok tg ∧ decide ((tg.tm 1).status ≠ .unset) = true :=
  ends_elim (by decide +kernel)

end Memar.Timer.Queue

namespace Memar.Syllab
open Memar

/-- **C178**, the part that holds: bytes that are encoded behind their descriptor are given back by the decoder exactly
when the buffer has room for all of them, or those it has no room for are all zero.
Missing: contents whose missing bytes are not all zero. -/
theorem C178_room_partial (p s : Bytes) (st heap : U32) (h1 : st.toNat + 8 ≤ heap.toNat) (h2 : heap.toNat ≤ p.length)
    (hp : p.length < 2 ^ 32) (hs : s.length < 2 ^ 32) :
    ∃ p' next, setByteArray p s st heap = some (p', next) ∧
      (getByteArray p' st = some s ↔ heap.toNat + s.length ≤ p.length ∨ ∀ b ∈ s.drop (p.length - heap.toNat), b = 0#8) := by
  by_cases hr : heap.toNat + s.length ≤ p.length
  · have hz : (Val.bytes s).size = s.length := by simp [Val.size, Val.count, Val.esize]
    obtain ⟨p', next, e, _, g, _⟩ := C04_field_roundtrip (.bytes s) p st heap (by omega) (by rw [hz]; exact hr) hp (.inl h1)
    refine ⟨p', next, e, fun _ => .inl hr, fun _ => ?_⟩
    simp only [Val.get, Option.map_eq_some_iff, Val.bytes.injEq] at g
    obtain ⟨a, ha, rfl⟩ := g
    exact ha
  · obtain ⟨p', next, e, _, g⟩ := C178_short_heap_any_violated p s st heap h1 h2 (by omega) hp hs
    refine ⟨p', next, e, ?_⟩
    rw [g, Option.some.injEq]
    have hsplit := List.take_append_drop (p.length - heap.toNat) s
    have hl : (s.drop (p.length - heap.toNat)).length = heap.toNat + s.length - p.length := by
      rw [List.length_drop]; omega
    constructor
    · intro h
      right
      have h' : s.take (p.length - heap.toNat) ++ List.replicate (heap.toNat + s.length - p.length) 0#8 =
          s.take (p.length - heap.toNat) ++ s.drop (p.length - heap.toNat) := by rw [hsplit]; exact h
      rw [← List.append_cancel_left h']
      intro b hb
      exact List.eq_of_mem_replicate hb
    · rintro (h | h)
      · exact absurd h hr
      · rw [List.eq_replicate_of_mem h, hl] at hsplit
        exact hsplit

example : (0#32 : U32).toNat + 8 ≤ (8#32 : U32).toNat ∧ (8#32 : U32).toNat ≤ (List.replicate 9 (0#8 : Byte)).length := by decide

end Memar.Syllab
