import Verif.Compress.Model

/-!
# C129–C130: compressors and decompressors
-/

namespace Memar.Compress
open Memar

/-! ## Specification: what a codec with fixed contents answers -/

namespace CSpec

/-- The calls that read a codec. -/
inductive Call where
  | marshal
  | marshalTo (d : Bytes)
  | len

/-- Their answers. -/
inductive Ans where
  | bytes (b : Bytes) (err : Bool)
  | num (n : Nat)
  deriving DecidableEq

/-- The answers of a codec that holds `b`. -/
def answer (b : Bytes) : Call → Ans
  | .marshal => .bytes b false
  | .marshalTo d => .bytes (d ++ b) false
  | .len => .num b.length

end CSpec
open CSpec

def Comp.call (fl : Flavor) (L : Lib) (w : World) (c : Comp) : Call → Option (Comp × Ans)
  | .marshal => (c.marshal fl L w).map fun r => (r.1, .bytes r.2.1 r.2.2)
  | .marshalTo d => (c.marshalTo fl L w d).map fun r => (r.1, .bytes r.2.1 r.2.2)
  | .len => (c.len fl L w).map fun r => (r.1, .num r.2)

/-- The answers to a history of calls, each with what the sources hold at its time. -/
def Comp.run (fl : Flavor) (L : Lib) (c : Comp) : List (World × Call) → Option (List Ans)
  | [] => some []
  | (w, k) :: r => (c.call fl L w k).bind fun x => (x.1.run fl L r).map (x.2 :: ·)

def Dec.call (fl : Flavor) (L : Lib) (w : World) (d : Dec) : Call → Option (Dec × Ans)
  | .marshal => (d.marshal fl L w).map fun r => (r.1, .bytes r.2.1 r.2.2)
  | .marshalTo p => (d.marshalTo fl L w p).map fun r => (r.1, .bytes r.2.1 r.2.2)
  | .len => (d.len fl L w).map fun r => (r.1, .num r.2)

def Dec.run (fl : Flavor) (L : Lib) (d : Dec) : List (World × Call) → Option (List Ans)
  | [] => some []
  | (w, k) :: r => (d.call fl L w k).bind fun x => (x.1.run fl L r).map (x.2 :: ·)

theorem Comp.call_ready (fl : Flavor) (L : Lib) (w : World) (c c' : Comp) (b : Bytes) (hr : c.ready fl L w = some (c', false))
    (hb : c'.data = some b) (k : Call) : c.call fl L w k = some (c', answer b k) := by
  cases k <;> simp [Comp.call, Comp.marshal, Comp.marshalTo, Comp.len, hr, hb, answer]

theorem Comp.run_kept (fl : Flavor) (L : Lib) (c : Comp) (b : Bytes) (hb : c.data = some b) (ks : List (World × Call)) :
    c.run fl L ks = some (ks.map fun k => answer b k.2) := by
  induction ks with
  | nil => rfl
  | cons k ks ih =>
    obtain ⟨w, k⟩ := k
    have hr : c.ready fl L w = some (c, false) := by simp [Comp.ready, hb]
    rw [Comp.run, Comp.call_ready fl L w c c b hr hb k, Option.bind_some, ih]
    rfl

/-- **C129**: from its first call on, a compressor answers every call as a codec that holds the compressed contents its source had at that
first call, however often and in which order it is called and whatever becomes of the source. Missing: sources that fail, a second `Init`, and
levels that are not accepted; see below. -/
theorem C129_compressor_partial (fl : Flavor) (L : Lib) (s : Nat) (l : Int) (hl : L.level l = true) (w : World) (x : Bytes) (hx : w s = some x)
    (k : Call) (ks : List (World × Call)) :
    (({} : Comp).init s l).run fl L ((w, k) :: ks) = some (((w, k) :: ks).map fun k => answer (L.comp l x) k.2) := by
  have hr : (({} : Comp).init s l).ready fl L w = some (⟨some s, l, some (L.comp l x)⟩, false) := by
    simp [Comp.ready, Comp.init, Comp.encodeAll, hx, hl]
  rw [Comp.run, Comp.call_ready fl L w _ _ _ hr rfl k, Option.bind_some, Comp.run_kept fl L _ _ rfl ks]
  rfl

/-- non-vacuity: a library that puts the length in front -/
def toyLib : Lib where
  level l := decide (-2 ≤ l ∧ l ≤ 9)
  comp _ x := BitVec.ofNat 8 x.length :: x
  header b := decide (b ≠ [])
  dec b := (b.drop 1, decide (b ≠ []))

example : (({} : Comp).init 0 6).run .gzip toyLib
    [((fun _ => some [7, 8]), .len), ((fun _ => some [9]), .marshalTo [1]), ((fun _ => none), .marshal)] =
    some [.num 3, .bytes [1, 2, 7, 8] false, .bytes [2, 7, 8] false] := by decide

/-- **C129**: the deflate compressor reports the error of its source, and asks it again at the next call. -/
theorem C129_flate_error (L : Lib) (s : Nat) (l : Int) (w : World) (hw : w s = none) (d : Bytes) :
    (({} : Comp).init s l).marshal .flate L w = some (({} : Comp).init s l, [], true) ∧
    (({} : Comp).init s l).marshalTo .flate L w d = some (({} : Comp).init s l, d, true) := by
  simp [Comp.marshal, Comp.marshalTo, Comp.ready, Comp.init, Comp.encodeAll, hw]

example := C129_flate_error toyLib 0 6 (fun _ => none) rfl [1#8]

/-- C129 violated: the gzip compressor drops the error of its source: it answers with no bytes and no error, which is not even valid gzip. -/
theorem C129_gzip_error_violated (L : Lib) (s : Nat) (l : Int) (w : World) (hw : w s = none) :
    (({} : Comp).init s l).marshal .gzip L w = some (({} : Comp).init s l, [], false) := by
  simp [Comp.marshal, Comp.ready, Comp.init, Comp.encodeAll, hw]

example := C129_gzip_error_violated toyLib 0 6 (fun _ => none) rfl

/-- C129 violated: a compressor that is initialised for another source keeps the data of the first one: it never compresses the second. -/
theorem C129_reinit_violated (fl : Flavor) (L : Lib) (s t : Nat) (l m : Int) (hl : L.level l = true) (w v : World) (x : Bytes)
    (hx : w s = some x) :
    ∃ c, (({} : Comp).init s l).marshal fl L w = some (c, L.comp l x, false) ∧
      (c.init t m).marshal fl L v = some (c.init t m, L.comp l x, false) := by
  refine ⟨⟨some s, l, some (L.comp l x)⟩, ?_, ?_⟩
  · simp [Comp.marshal, Comp.ready, Comp.init, Comp.encodeAll, hx, hl]
  · simp [Comp.marshal, Comp.ready, Comp.init]

example := C129_reinit_violated .gzip toyLib 0 1 6 6 (by decide) (fun _ => some [7, 8]) (fun _ => some [9]) _ rfl

/-- C129 violated: with a level the library does not accept, every call that compresses panics: the error of making the writer is dropped. -/
theorem C129_level_violated (fl : Flavor) (L : Lib) (s : Nat) (l : Int) (hl : L.level l = false) (w : World) (x : Bytes) (hx : w s = some x)
    (k : Call) : (({} : Comp).init s l).call fl L w k = none ∧ (({} : Comp).init s l).writeTo L w = none := by
  constructor
  · cases k <;> simp [Comp.call, Comp.marshal, Comp.marshalTo, Comp.len, Comp.ready, Comp.init, Comp.encodeAll, hx, hl]
  · simp [Comp.writeTo, Comp.init, hx, hl]

example : toyLib.level 10 = false := by decide

/-- **C129**: writing a compressor to a writer gives it exactly the compressed contents the source has now. Not covered: the number
returned, see below.
Missing: the number returned, errors of source and level, and initialising again (refuted:
`C129_gzip_error_violated`, `C129_reinit_violated`, `C129_level_violated` and others). -/
theorem C129_write_partial (L : Lib) (s : Nat) (l : Int) (hl : L.level l = true) (w : World) (x : Bytes) (hx : w s = some x) :
    ∃ n, (({} : Comp).init s l).writeTo L w = some (L.comp l x, n, false) :=
  ⟨x.length, by simp [Comp.writeTo, Comp.init, hx, hl]⟩

example := C129_write_partial toyLib 0 6 (by decide) (fun _ => some [7, 8]) _ rfl

/-- C129 violated: the number of bytes `WriteTo` says it has written is the length of the source, not of what was written. -/
theorem C129_write_count_violated (L : Lib) (s : Nat) (l : Int) (hl : L.level l = true) (w : World) (x : Bytes) (hx : w s = some x) :
    (({} : Comp).init s l).writeTo L w = some (L.comp l x, x.length, false) := by
  simp [Comp.writeTo, Comp.init, hx, hl]

example : (toyLib.comp 1 [5]).length ≠ [5#8].length := by decide

/-! ## C130 -/

theorem Dec.call_ready (fl : Flavor) (L : Lib) (w : World) (c c' : Dec) (b : Bytes) (hr : c.ready fl L w = some (c', false))
    (hb : c'.data = some b) (k : Call) : c.call fl L w k = some (c', answer b k) := by
  cases k <;> simp [Dec.call, Dec.marshal, Dec.marshalTo, Dec.len, hr, hb, answer]

theorem Dec.run_kept (fl : Flavor) (L : Lib) (c : Dec) (b : Bytes) (hb : c.data = some b) (ks : List (World × Call)) :
    c.run fl L ks = some (ks.map fun k => answer b k.2) := by
  induction ks with
  | nil => rfl
  | cons k ks ih =>
    obtain ⟨w, k⟩ := k
    have hr : c.ready fl L w = some (c, false) := by simp [Dec.ready, hb]
    rw [Dec.run, Dec.call_ready fl L w c c b hr hb k, Option.bind_some, ih]
    rfl

/-- **C265**: a decompressor on compressed contents answers every call, in every history, as a codec that holds the plain contents.
`hlib` is what is asked of the library: reading what it wrote gives the data back.
Missing: damaged data, data handed over, and writing a gzip decompressor (refuted:
`C265_damaged_violated`, `C265_not_gzip_violated`, `C265_unmarshal_violated` and others). -/
theorem C265_roundtrip_partial (fl : Flavor) (L : Lib) (s t : Nat) (l : Int) (hl : L.level l = true)
    (hlib : ∀ x, L.header (L.comp l x) = true ∧ L.dec (L.comp l x) = (x, true)) (w v : World) (x : Bytes) (hx : w s = some x)
    (k : Call) (ks : List (World × Call)) :
    ∃ c y, (({} : Comp).init s l).marshal fl L w = some (c, y, false) ∧
      (v t = some y → (({} : Dec).init t).run fl L ((v, k) :: ks) = some (((v, k) :: ks).map fun k => answer x k.2)) := by
  refine ⟨⟨some s, l, some (L.comp l x)⟩, L.comp l x, by simp [Comp.marshal, Comp.ready, Comp.init, Comp.encodeAll, hx, hl], ?_⟩
  intro hv
  obtain ⟨h1, h2⟩ := hlib x
  obtain ⟨c', hr, hb⟩ : ∃ c', (({} : Dec).init t).ready fl L v = some (c', false) ∧ c'.data = some x := by
    cases fl <;> simp [Dec.ready, Dec.init, Dec.decompressAll, hv, h1, h2]
  rw [Dec.run, Dec.call_ready fl L v _ _ _ hr hb k, Option.bind_some, Dec.run_kept fl L _ _ hb ks]
  rfl

/-- non-vacuity -/
example : ∀ x, toyLib.header (toyLib.comp 6 x) = true ∧ toyLib.dec (toyLib.comp 6 x) = (x, true) := fun x => by simp [toyLib]

/-- C265 violated: damaged contents are not noticed. Whatever part of them can be read is returned as the contents, without an error. -/
theorem C265_damaged_violated (fl : Flavor) (L : Lib) (t : Nat) (w : World) (b y : Bytes) (hw : w t = some b) (hh : L.header b = true)
    (hd : L.dec b = (y, false)) : ∃ d, (({} : Dec).init t).marshal fl L w = some (d, y, false) := by
  cases fl <;> simp [Dec.marshal, Dec.ready, Dec.init, Dec.decompressAll, hw, hh, hd]

example := C265_damaged_violated .gzip { toyLib with dec := fun b => (b.drop 2, false) } 0 (fun _ => some (toyLib.comp 6 [7, 8, 9])) _ _
  rfl (by decide) rfl

/-- C265 violated: contents that are not gzip at all are returned as empty contents, without an error. -/
theorem C265_not_gzip_violated (L : Lib) (t : Nat) (w : World) (b : Bytes) (hw : w t = some b) (hh : L.header b = false) :
    ∃ d, (({} : Dec).init t).marshal .gzip L w = some (d, [], false) := by
  simp [Dec.marshal, Dec.ready, Dec.init, Dec.decompressAll, hw, hh]

example := C265_not_gzip_violated toyLib 0 (fun _ => some []) _ rfl (by decide)

/-- C265 violated: data handed to the gzip decompressor with `Unmarshal` is accepted and not used: what it then holds is what its source
holds, whatever the data; a decompressor without a source panics; and the data is said to remain whole. -/
theorem C265_unmarshal_violated (L : Lib) (t : Nat) (w : World) (b data : Bytes) (hw : w t = some b) (hh : L.header b = true) :
    ((({} : Dec).init t).unmarshal .gzip L data).2 = (0, false) ∧
    (∃ d, ((({} : Dec).init t).unmarshal .gzip L data).1.marshal .gzip L w = some (d, (L.dec b).1, false)) ∧
    (({} : Dec).unmarshal .gzip L data).1.marshal .gzip L w = none ∧
    (∃ d, (({} : Dec).init t).unmarshalFrom .gzip L data = some (d, data, false)) := by
  refine ⟨rfl, ?_, rfl, ?_⟩
  · simp [Dec.unmarshal, Dec.marshal, Dec.ready, Dec.init, Dec.decompressAll, hw, hh]
  · simp [Dec.unmarshalFrom, Dec.unmarshal, sliceFrom]

example := C265_unmarshal_violated toyLib 0 (fun _ => some (toyLib.comp 6 [7, 8])) _ [5] rfl (by decide)

/-- **C130**: the deflate decompressor refuses new data and keeps what it has. -/
theorem C130_flate_read_only (L : Lib) (d : Dec) (b : Bytes) :
    d.unmarshal .flate L b = (d, 0, true) ∧ d.readFrom .flate L b = (d, 0, true) ∧ d.unmarshalFrom .flate L b = some (d, [], true) :=
  ⟨rfl, rfl, rfl⟩

/-- **C130**: writing the deflate decompressor to a writer gives it the plain contents, the number returned is the number of bytes written,
and damage is reported, after any history. -/
theorem C130_flate_write (L : Lib) (d : Dec) (t : Nat) (ht : d.source = some t) (w : World) (b : Bytes) (hw : w t = some b) :
    d.writeTo .flate L w = some (d, (L.dec b).1, (L.dec b).1.length, !(L.dec b).2) := by
  simp [Dec.writeTo, ht, hw]

example := C130_flate_write toyLib (({} : Dec).init 0) 0 rfl (fun _ => some (toyLib.comp 6 [7, 8])) _ rfl

/-- **C265**: the gzip decompressor writes the plain contents of what it was last told to read. Missing: that it does so for its source. -/
theorem C265_gzip_stream_partial (L : Lib) (d : Dec) (w : World) (b : Bytes) (hh : L.header b = true) :
    ∃ d', (d.readFrom .gzip L b).1.writeTo .gzip L w = some (d', (L.dec b).1, (L.dec b).1.length, !(L.dec b).2) := by
  simp [Dec.readFrom, reset, hh, Dec.writeTo]

example := C265_gzip_stream_partial toyLib {} (fun _ => none) (toyLib.comp 6 [7, 8]) (by decide)

/-- C265 violated: a gzip decompressor made for a source panics when it is written to a writer, and once it has been read it writes
nothing and reports success, unless its data was damaged. -/
theorem C265_gzip_write_violated (L : Lib) (t : Nat) (w v : World) (b : Bytes) (hw : w t = some b) (hh : L.header b = true) :
    (({} : Dec).init t).writeTo .gzip L w = none ∧
    ∃ d, (({} : Dec).init t).marshal .gzip L w = some (d, (L.dec b).1, false) ∧ d.writeTo .gzip L v = some (d, [], 0, !(L.dec b).2) := by
  refine ⟨rfl, ⟨some t, .ended (L.dec b).2, some (L.dec b).1⟩, ?_, rfl⟩
  simp [Dec.marshal, Dec.ready, Dec.init, Dec.decompressAll, hw, hh]

example := C265_gzip_write_violated toyLib 0 (fun _ => some (toyLib.comp 6 [7, 8])) (fun _ => none) _ rfl (by decide)

end Memar.Compress
