import Verif.Time.ElapsedProps
import Verif.Buffer.Queue
import Verif.Log.Props
import Verif.Net.FrameFieldsProps
import Verif.Tcp.LifeProps
import Verif.Go.ParserProps
import Verif.Compress.Props
import Verif.Chapar.NetworkProps

/-!
# Further theorems about small parts: queues, elapsed time, levels of logging, frames, keep-alive, parsing of packages, compression, switches
-/

namespace Memar.Queue

/-- **C119**: the capacity a queue was made with is the capacity it has; a queue that was never made has none. -/
theorem C119_capacity (cap : Nat) : zero.totalCap = 0 ∧ (zero.init cap).totalCap = cap ∧ (zero.init cap).totalLen = 0 := ⟨rfl, rfl, rfl⟩

end Memar.Queue

namespace Memar.Log

/-- Every level, in the order of the source. -/
def allLevels : List Level :=
  [.information, .notice, .error, .debug, .deepDebug, .warning, .alert, .critical, .emergency, .fatal, .security, .confidential]

/-- **C137**: the levels are single bits of a set, in the order of their gravity, with one bit free between two: the value of the level of place `i`, from
one on, is `4 ^ i`, so none of them is part of another or of the empty set. -/
theorem C137_level_values (i : Nat) (l : Level) (h : allLevels[i]? = some l) : l.bits.toNat = 4 ^ (i + 1) := by
  have hi : i < 12 := (List.getElem?_eq_some_iff.1 h).1
  have key : ∀ i : Fin 12, ∀ l, allLevels[i.val]? = some l → l.bits.toNat = 4 ^ (i.val + 1) := by
    intro i
    match i with
    | ⟨0, _⟩ | ⟨1, _⟩ | ⟨2, _⟩ | ⟨3, _⟩ | ⟨4, _⟩ | ⟨5, _⟩ | ⟨6, _⟩ | ⟨7, _⟩ | ⟨8, _⟩ | ⟨9, _⟩ | ⟨10, _⟩ | ⟨11, _⟩ =>
      intro l h
      injection h with h
      subst h
      rfl
  exact key ⟨i, hi⟩ l h

/-- Every level has a place. -/
example : ∀ l : Level, l ∈ allLevels := by intro l; cases l <;> decide

end Memar.Log

namespace Memar.Time

/-- **C122**: no periods of a negative length have elapsed, whatever the time. -/
theorem C122_by_second_negative (t : Time) (d : I64) (hd : d.toInt < 0) : t.elapsedBySecond d = 0#64 := by
  unfold Time.elapsedBySecond
  have h1 : d.slt 0#64 = true := by rw [BitVec.slt_eq_decide]; simpa using hd
  rw [if_pos h1]

example := C122_by_second_negative ⟨86400#64, 5#32⟩ (BitVec.ofInt 64 (-3600)) (by decide)

end Memar.Time

namespace Memar.Net.Frames
open Memar Binary Net Spec

/-- **C229**: the compression of an open stream frame is the eight bytes at 10, in little endian, whenever it can be read. -/
theorem C229_open_compress (f : Bytes) (v : U64) : openCompressID f = some v ↔ 18 ≤ f.length ∧ v.toNat = leVal ((f.drop 10).take 8) := by
  constructor
  · exact fun h => le64_at f 10 v h
  · rintro ⟨h1, h2⟩
    unfold openCompressID
    rw [sliceFrom, if_pos (by omega), Option.bind_some, C01_le64_load, if_pos (by rw [List.length_drop]; omega)]
    congr 1
    apply BitVec.eq_of_toNat_eq
    rw [BitVec.toNat_ofNat, ← h2]
    exact Nat.mod_eq_of_lt v.isLt

example : openCompressID (List.replicate 10 0#8 ++ [7, 1, 0, 0, 0, 0, 0, 0]) = some 263#64 := by decide +kernel

end Memar.Net.Frames

namespace Memar.Tcp

/-- **C141**: keep-alive that was reset is off, with nothing counted and no time set, and remembers only how long it waits and when the connection was last
used; a reset user timeout is due at once. -/
theorem C141_reset_values (k : Checker) (now : Int) (hn : 0 ≤ now) :
    (kaReinit k).enable = false ∧ (kaReinit k).retryCount = 0 ∧ (kaReinit k).interval = 0 ∧ (kaReinit k).nextCheck ≤ now ∧
    (kaReinit k).idle = k.idle ∧ (kaReinit k).lastUse = k.lastUse ∧
    (utReinit k).nextCheck ≤ now ∧ (utReinit k).retryCount = 0 ∧ (utReinit k).idle = k.idle ∧ (utReinit k).interval = k.interval := by
  simp [kaReinit, utReinit, hn]

example := C141_reset_values ⟨true, 50, 10, 3, 98, 4⟩ 100 (by decide)

end Memar.Tcp

namespace Memar.GoParser
open Memar

/-- **C135**: the name of an import is what follows the last slash of its path, slashes at the end of the path not counting. -/
theorem C135_base (dir name : Bytes) (n : Nat) (h : name ≠ []) (hs : ∀ c ∈ name, c ≠ ch '/') (hd : dir = [] ∨ ∃ d, dir = d ++ [ch '/']) :
    pathBase (dir ++ name ++ List.replicate n (ch '/')) = name := by
  unfold pathBase
  have hne : dir ++ name ++ List.replicate n (ch '/') ≠ [] := by simp [h]
  rw [if_neg hne]
  have h1 : ((dir ++ name ++ List.replicate n (ch '/')).reverse.dropWhile (· == ch '/')) = name.reverse ++ dir.reverse := by
    rw [List.reverse_append, List.reverse_append, List.reverse_replicate]
    have : ∀ n : Nat, (List.replicate n (ch '/') ++ (name.reverse ++ dir.reverse)).dropWhile (· == ch '/') = name.reverse ++ dir.reverse := by
      intro n
      induction n with
      | zero =>
        rw [List.replicate_zero, List.nil_append]
        cases hr : name.reverse with
        | nil => exact absurd (by simpa using hr) h
        | cons c r =>
          rw [List.cons_append, List.dropWhile_cons, if_neg]
          simp only [beq_iff_eq]
          exact hs c (by rw [← List.mem_reverse, hr]; simp)
      | succ n ih => rw [List.replicate_succ, List.cons_append, List.dropWhile_cons, if_pos (by simp), ih]
    exact this n
  have h2 : (name.reverse ++ dir.reverse).takeWhile (· != ch '/') = name.reverse := by
    rw [List.takeWhile_append_of_pos (fun c hc => by simpa using hs c (by simpa using hc))]
    rcases hd with rfl | ⟨d, rfl⟩
    · simp
    · simp
  simp only [h1, h2]
  rw [if_neg (by simpa using h), List.reverse_reverse]

/-- **C135**: only slashes give a slash and no path a dot. -/
theorem C135_base_empty (n : Nat) : pathBase (List.replicate (n + 1) (ch '/')) = bs "/" ∧ pathBase [] = bs "." := by
  have h : ∀ n : Nat, ((List.replicate n (ch '/')).dropWhile (· == ch '/')) = [] := by
    intro n
    induction n with
    | zero => rfl
    | succ n ih => rw [List.replicate_succ, List.dropWhile_cons, if_pos (by simp), ih]
  refine ⟨?_, rfl⟩
  unfold pathBase
  rw [if_neg (by simp [List.replicate_succ]), List.reverse_replicate, h]
  rfl

example : pathBase (bs "memar/net/http/") = bs "http" := C135_base (bs "memar/net/") (bs "http") 1 (by decide) (by decide) (.inr ⟨bs "memar/net", rfl⟩)

/-- **C135**: parsing a file reports an error exactly when the standard parser does. -/
theorem C135_error_iff (exported : Bytes → Bool) (std : Bytes → Option Ast) (k : Nat) (p p' : Package) (name data : Bytes) (e : Bool)
    (h : p.parse exported std k name data = some (p', e)) : e = true ↔ std data = none := by
  simp only [Package.parse] at h
  rw [if_pos (cond_true name)] at h
  cases hs : std data with
  | none => simp [hs] at h; simp [h.2.symm]
  | some a =>
    simp only [hs, Option.map_eq_some_iff] at h
    obtain ⟨q, _, hq⟩ := h
    injection hq with _ hq
    simp [← hq]

example := C135_error_iff (fun _ => true) (fun _ => none) 5 ⟨[], fun _ => none, fun _ => none, fun _ => none, fun _ => none⟩ _ (bs "a.go") (bs "pack age") true rfl
example := C135_error_iff (fun _ => true) (fun _ => some ⟨bs "s", [], []⟩) 5 ⟨[], fun _ => none, fun _ => none, fun _ => none, fun _ => none⟩ _ (bs "a.go")
  (bs "package s") false rfl

end Memar.GoParser

namespace Memar.Compress
open Memar

/-- **C129**, **C130**: nothing of a source that fails is written, none is counted, and the error is reported, by both compressors and by the deflate
decompressor. -/
theorem C130_failing_source (L : Lib) (c : Comp) (d : Dec) (s : Nat) (w : World) (hw : w s = none) (hc : c.source = some s) (hd : d.source = some s) :
    c.writeTo L w = some ([], 0, true) ∧ d.writeTo .flate L w = some (d, [], 0, true) := by
  simp [Comp.writeTo, Dec.writeTo, hc, hd, hw]

example := C130_failing_source toyLib (({} : Comp).init 4 6) (({} : Dec).init 4) 4 (fun s => if s = 4 then none else some [1, 2]) rfl rfl rfl

/-- **C130**: a gzip decompressor that refused its input says so when it is told to read, and when it is written afterwards: then nothing is
written, and only the refusal of an input without any byte is not reported again. -/
theorem C130_refused_input (L : Lib) (d : Dec) (w : World) (b : Bytes) (hh : L.header b = false) :
    (d.readFrom .gzip L b).2.2 = true ∧ (d.readFrom .gzip L b).2.1 = 0 ∧
    (d.readFrom .gzip L b).1.writeTo .gzip L w = some ((d.readFrom .gzip L b).1, [], 0, !b.isEmpty) := by
  simp [Dec.readFrom, Dec.writeTo, reset, hh]

example := C130_refused_input toyLib (({} : Dec).init 3) (fun _ => some [1, 2]) [] (by decide)
example := C130_refused_input { toyLib with header := fun b => b.length > 1 } (({} : Dec).init 3) (fun _ => some [1, 2]) [5] (by decide)

/-- C265 violated: a reader that was read to its end counts as no bytes read. -/
theorem C265_read_count_violated (L : Lib) (d : Dec) (b : Bytes) (hh : L.header b = true) : (d.readFrom .gzip L b).2 = (0, false) := by
  simp [Dec.readFrom, hh]

example := C265_read_count_violated toyLib (({} : Dec).init 3) [2, 7, 8] (by decide)

/-- **C130**: the deflate decompressor hands on the error of its source and keeps nothing, so that it tries again the next time. -/
theorem C130_flate_error (L : Lib) (d : Dec) (t : Nat) (w : World) (hw : w t = none) (ht : d.source = some t) (hn : d.data = none) (p : Bytes) :
    d.marshal .flate L w = some (d, [], true) ∧ d.marshalTo .flate L w p = some (d, p, true) ∧ d.len .flate L w = some (d, 0) := by
  simp [Dec.marshal, Dec.marshalTo, Dec.len, Dec.ready, Dec.decompressAll, hw, ht, hn]

example := C130_flate_error toyLib (({} : Dec).init 4) 4 (fun s => if s = 4 then none else some [1, 2]) rfl rfl rfl [9]

/-- C265 violated: the gzip decompressor drops the error of its source: it answers with no bytes and no error. -/
theorem C265_gzip_error_violated (L : Lib) (d : Dec) (t : Nat) (w : World) (hw : w t = none) (ht : d.source = some t) (hn : d.data = none) :
    d.marshal .gzip L w = some (d, [], false) := by
  simp [Dec.marshal, Dec.ready, Dec.decompressAll, hw, ht, hn]

example := C265_gzip_error_violated toyLib (({} : Dec).init 4) 4 (fun s => if s = 4 then none else some [1, 2]) rfl rfl rfl

/-- C130: `decompressAll`, which the others call, reports an error exactly when the source fails. -/
theorem C130_decompressAll (fl : Flavor) (L : Lib) (d : Dec) (t : Nat) (w : World) (ht : d.source = some t) :
    ∃ d' e, d.decompressAll fl L w = some (d', e) ∧ (e = true ↔ w t = none) := by
  cases hw : w t with
  | none => exact ⟨d, true, by simp [Dec.decompressAll, ht, hw], by simp⟩
  | some b =>
    cases fl with
    | flate => exact ⟨_, false, by simp only [Dec.decompressAll, ht, hw]; rfl, by simp⟩
    | gzip =>
      cases hh : L.header b with
      | false => exact ⟨_, false, by simp only [Dec.decompressAll, ht, hw, hh]; rfl, by simp⟩
      | true => exact ⟨_, false, by simp only [Dec.decompressAll, ht, hw, hh]; rfl, by simp⟩

example : (({} : Dec).init 3).source = some 3 ∧ (({} : Dec).init 3).data = none ∧ toyLib.header [] = false := by decide

end Memar.Compress

namespace Memar.Chapar
open Memar
variable {P : Type}

theorem broadcast_run (m : Mux P) (frame : Bytes) (c : Nat → P) (k : Nat) (hk : k ≤ 256) : ∀ (n i : Nat) (out : List (P × Bytes)) (fuel : Nat), i + n = k →
    (∀ j, j < k → (m.ports (BitVec.ofNat 8 j)).phys = some (c j)) →
    m.sendBroadcast frame (fuel + n) (BitVec.ofNat 8 i) out =
      m.sendBroadcast frame fuel (BitVec.ofNat 8 k) (out ++ (List.range' i n).map fun j => (c j, frame)) := by
  intro n
  induction n with
  | zero => intro i out fuel h _; simp at h; subst h; simp
  | succ n ih =>
    intro i out fuel h hc
    rw [← Nat.add_assoc, Mux.sendBroadcast, if_pos (by rw [BitVec.le_def]; have := (BitVec.ofNat 8 i).isLt; simp; omega)]
    simp only [Port.send, hc i (by omega), Option.map_some]
    rw [show BitVec.ofNat 8 i + 1#8 = BitVec.ofNat 8 (i + 1) by rw [BitVec.ofNat_add], ih (i + 1) _ fuel (by omega) hc, List.range'_succ]
    simp

/-- C267 violated: a broadcast does not skip a port without a connection but panics there: it is sent, once each and in order, on the ports before the first
one without a connection, and on no other. -/
theorem C267_broadcast_violated (m : Mux P) (n : Byte) (tail : Bytes) (c : Nat → P) (k : Nat) (hk : k < 256) (fuel : Nat)
    (hc : ∀ j, j < k → (m.ports (BitVec.ofNat 8 j)).phys = some (c j)) (hno : (m.ports (BitVec.ofNat 8 k)).phys = none) :
    m.send (fuel + 1 + k) (3#8 :: 0#8 :: n :: tail) = some ((List.range k).map fun j => (c j, 3#8 :: 0#8 :: n :: tail), true) := by
  have e1 : isBroadcastFrame (3#8 :: 0#8 :: n :: tail) = some true := by simp [isBroadcastFrame, broadcastHopCount]
  rw [Mux.send, e1]
  simp only []
  rw [broadcast_run m _ c k (by omega) k 0 [] (fuel + 1) (by omega) hc, Mux.sendBroadcast, if_pos (by rw [BitVec.le_def]; have := (BitVec.ofNat 8 k).isLt; simp; omega)]
  simp [Port.send, hno, List.range_eq_range']

/-- C267 violated: a broadcast of a switch all of whose ports are connected never ends: it goes on after the last port with the first one. -/
theorem C267_broadcast_endless_violated (m : Mux P) (n : Byte) (tail : Bytes) (hc : ∀ j, (m.ports j).phys ≠ none) (fuel : Nat) :
    m.send fuel (3#8 :: 0#8 :: n :: tail) = none := by
  have e1 : isBroadcastFrame (3#8 :: 0#8 :: n :: tail) = some true := by simp [isBroadcastFrame, broadcastHopCount]
  rw [Mux.send, e1]
  simp only []
  generalize ([] : List (P × Bytes)) = out
  generalize (0#8 : Byte) = i
  generalize 3#8 :: _ = frame
  induction fuel generalizing i out with
  | zero => rfl
  | succ fuel ih =>
    rw [Mux.sendBroadcast, if_pos (by rw [BitVec.le_def]; have := i.isLt; simp; omega)]
    cases hp : (m.ports i).phys with
    | none => exact absurd hp (hc i)
    | some c => simp only [Port.send, hp, Option.map_some]; exact ih _ _

/-- C267 violated: a frame too short to say where it goes is not refused when it is sent: it panics. -/
theorem C267_short_send_violated (m : Mux P) (fuel : Nat) (frame : Bytes) (h : frame.length < 2) : m.send fuel frame = some ([], true) := by
  have : isBroadcastFrame frame = none := by simp [isBroadcastFrame, List.getElem?_eq_none (show frame.length ≤ 1 by omega)]
  rw [Mux.send, this]

/-- **C138**: a port that is registered is the one the switch has for its number; the ports of other numbers are as they were. -/
theorem C138_register (m : Mux P) (i : Byte) (p : Port P) :
    (m.register i p).ports i = p ∧ (∀ j, j ≠ i → (m.register i p).ports j = m.ports j) ∧ (m.register i p).number = m.number := by
  refine ⟨by simp [Mux.register], fun j h => by simp [Mux.register, h], rfl⟩

example : ((Mux.fresh 0 0#8 7).register 1#8 ⟨none, some 8⟩).send 9 [3#8, 0#8, 0#8] = some ([(7, [3#8, 0#8, 0#8]), (8, [3#8, 0#8, 0#8])], true) := by decide

example := C267_broadcast_violated ((Mux.fresh 0 0#8 7).register 1#8 ⟨none, some 8⟩) 0#8 [] (fun j => 7 + j) 2 (by decide) 6 (by decide) (by decide)
example (P : Type) (c : Byte → P) := C267_broadcast_endless_violated ⟨0#8, fun j => ⟨none, some (c j)⟩⟩ 0#8 [] (fun _ => nofun) 1000
example := C267_short_send_violated (Mux.fresh 0 0#8 7) 9 [3#8] (by decide)

end Memar.Chapar
