import Verif.Compress.Props

/-!
# C164: the compress types as a program uses them

`Compress` and `Decompress` of the types gzip and deflate, the calls by which a compressor or decompressor is written to, and a
decompressor whose source is a compressor. The media type of a codec is a parameter.
-/

namespace Memar.Compress
open Memar CSpec

/-! ## Model -/

/-- compress/gzip/gzip.go:41-46, compress/flate/deflate.go:41-46 `Compress`: a new compressor each time, and no error -/
def compress (s : Nat) (l : Int) : Comp × Bool := (({} : Comp).init s l, false)

/-- compress/gzip/gzip.go:47-52, compress/flate/deflate.go:47-52 `Decompress`: a new decompressor each time, and no error -/
def decompress (t : Nat) : Dec × Bool := (({} : Dec).init t, false)

/-- The calls by which a codec is told its contents. -/
inductive Put where
  | decode | unmarshal (b : Bytes) | unmarshalFrom (b : Bytes) | readFrom (b : Bytes)

/-- compress/gzip/compressor.go:49-52, 71-78, 92-95, compress/flate/compressor.go:49-52, 71-78, 92-95 `Decode`, `Unmarshal`, `UnmarshalFrom`,
`ReadFrom`: the number is 0, nothing remains, the error is `ErrSourceNotChangeable` (`true`) -/
def Comp.put (c : Comp) (_ : Put) : Comp × Nat × Bytes × Bool := (c, 0, [], true)

/-- compress/gzip/decompressor.go:61-64, 83-97, 114-117, compress/flate/decompressor.go:52-55, 74-81, 92-95 -/
def Dec.put (fl : Flavor) (L : Lib) (d : Dec) : Put → Option (Dec × Nat × Bytes × Bool)
  | .decode => some (d, 0, [], true)
  | .unmarshal b => let r := d.unmarshal fl L b; some (r.1, r.2.1, [], r.2.2)
  | .unmarshalFrom b => (d.unmarshalFrom fl L b).map fun r => (r.1, 0, r.2.1, r.2.2)
  | .readFrom b => let r := d.readFrom fl L b; some (r.1, r.2.1, [], r.2.2)

/-- compress/gzip/compressor.go:53-56, compress/flate/compressor.go:53-56 `Encode`: the destination is handed the compressor; `decode` is the
destination's `Decode`, told what the compressor's `Marshal` answers. -/
def Comp.encode (fl : Flavor) (L : Lib) (w : World) (c : Comp) (decode : Bytes × Bool → Nat × Bool) : Option (Comp × Nat × Bool) :=
  (c.marshal fl L w).map fun r => (r.1, decode r.2)

/-- A decompressor whose source is a compressor. -/
structure Chain where
  comp : Comp
  dec : Dec

/-- compress/gzip/gzip.go:41-52, compress/flate/deflate.go:41-52: `Decompress` of what `Compress` answered.
compress/gzip/decompressor.go:24-29 asks the compressor for its length at once, compress/flate/decompressor.go:21-25 does not. -/
def chain (fl : Flavor) (L : Lib) (w : World) (s : Nat) (l : Int) : Option Chain :=
  match fl with
  | .gzip => ((compress s l).1.len fl L w).map fun r => ⟨r.1, (decompress 0).1⟩
  | .flate => some ⟨(compress s l).1, (decompress 0).1⟩

/-- One reading call on the decompressor (compress/gzip/decompressor.go:69-82, 98-103, compress/flate/decompressor.go:60-73, 84-89); when it
holds nothing yet it marshals the compressor. -/
def Chain.call (fl : Flavor) (L : Lib) (w : World) (c : Chain) (k : Call) : Option (Chain × Ans) :=
  if c.dec.data = none then
    (c.comp.marshal fl L w).bind fun m =>
      (c.dec.call fl L (fun _ => if m.2.2 then none else some m.2.1) k).map fun r => (⟨m.1, r.1⟩, r.2)
  else (c.dec.call fl L (fun _ => none) k).map fun r => (⟨c.comp, r.1⟩, r.2)

def Chain.run (fl : Flavor) (L : Lib) (c : Chain) : List (World × Call) → Option (List Ans)
  | [] => some []
  | (w, k) :: r => (c.call fl L w k).bind fun x => (x.1.run fl L r).map (x.2 :: ·)

/-- What `MediaType` and `CompressType` answer: the names, `none` is nil. -/
structure Kind where
  media : Option Bytes
  compress : Option Bytes

/-- compress/gzip/compressor.go:46-47, compress/flate/compressor.go:46-47: the source is asked at the time of the call -/
def Comp.kind (fl : Flavor) (src : Kind) : Kind := ⟨src.media, some (if fl = .gzip then bs "gzip" else bs "deflate")⟩

/-- compress/gzip/decompressor.go:59-60, compress/flate/decompressor.go:49-50: the source was asked by `Init` -/
def Dec.kind (atInit : Kind) : Kind := ⟨atInit.media, none⟩

/-! ## Properties -/

/-- **C164**: a compressor is read only: each of the four calls that would tell it other contents fails, reads nothing, and leaves every later
answer as it was. -/
theorem C164_compressor_read_only (fl : Flavor) (L : Lib) (c : Comp) (p : Put) (ks : List (World × Call)) :
    (c.put p).2 = (0, [], true) ∧ (c.put p).1.run fl L ks = c.run fl L ks := ⟨rfl, rfl⟩

theorem Dec.ready_zr (L : Lib) (w : World) (d : Dec) (z : Rd) :
    ∃ z', ({ d with zr := z } : Dec).ready .gzip L w = (d.ready .gzip L w).map fun r => ({ r.1 with zr := z' }, r.2) := by
  obtain ⟨s, y, x⟩ := d
  simp only [Dec.ready, Dec.decompressAll]
  by_cases hx : x = none
  · subst hx
    cases s with
    | none => exact ⟨z, rfl⟩
    | some s =>
      simp only [if_true]
      cases w s with
      | none => exact ⟨z, rfl⟩
      | some b =>
        by_cases hh : L.header b = true
        · exact ⟨.ended (L.dec b).2, by simp [hh]⟩
        · exact ⟨.ended b.isEmpty, by simp [hh]⟩
  · exact ⟨z, by simp [hx]⟩

theorem Dec.run_zr (L : Lib) (ks : List (World × Call)) (d : Dec) (z : Rd) :
    ({ d with zr := z } : Dec).run .gzip L ks = d.run .gzip L ks := by
  induction ks generalizing z d with
  | nil => rfl
  | cons wk ks ih =>
    obtain ⟨w, k⟩ := wk
    obtain ⟨z', hz⟩ := Dec.ready_zr L w d z
    have hc : ({ d with zr := z } : Dec).call .gzip L w k = (d.call .gzip L w k).map fun r => ({ r.1 with zr := z' }, r.2) := by
      cases k <;> simp only [Dec.call, Dec.marshal, Dec.marshalTo, Dec.len, hz, Option.map_map] <;> rfl
    simp only [Dec.run, hc]
    cases d.call .gzip L w k with
    | none => rfl
    | some r => simp only [Option.map_some, Option.bind_some, ih]

/-- **C164**: telling a decompressor other contents, by whichever of the four calls, never changes what it answers to the reading calls;
the deflate decompressor always answers an error, and so does `Decode` of both. -/
theorem C164_decompressor_answers (fl : Flavor) (L : Lib) (d : Dec) (p : Put) :
    ∃ d' n rest err, d.put fl L p = some (d', n, rest, err) ∧ (∀ ks, d'.run fl L ks = d.run fl L ks) ∧
      (fl = .flate → d' = d ∧ err = true) ∧ (p = .decode → d' = d ∧ err = true) := by
  cases fl <;> cases p
  · exact ⟨d, 0, [], true, rfl, fun _ => rfl, fun h => (by cases h), fun _ => ⟨rfl, rfl⟩⟩
  · exact ⟨_, _, _, _, rfl, fun ks => Dec.run_zr L ks d _, fun h => (by cases h), fun h => (by cases h)⟩
  · exact ⟨_, _, _, _, (by simp [Dec.put, Dec.unmarshalFrom, Dec.unmarshal, sliceFrom]; exact ⟨rfl, rfl, rfl, rfl⟩),
      fun ks => Dec.run_zr L ks d _, fun h => (by cases h), fun h => (by cases h)⟩
  · exact ⟨_, _, _, _, rfl, fun ks => Dec.run_zr L ks d _, fun h => (by cases h), fun h => (by cases h)⟩
  · exact ⟨d, 0, [], true, rfl, fun _ => rfl, fun _ => ⟨rfl, rfl⟩, fun _ => ⟨rfl, rfl⟩⟩
  · exact ⟨d, 0, [], true, rfl, fun _ => rfl, fun _ => ⟨rfl, rfl⟩, fun h => (by cases h)⟩
  · exact ⟨d, 0, [], true, rfl, fun _ => rfl, fun _ => ⟨rfl, rfl⟩, fun h => (by cases h)⟩
  · exact ⟨d, 0, [], true, rfl, fun _ => rfl, fun _ => ⟨rfl, rfl⟩, fun h => (by cases h)⟩

/-- **C246** violated for the gzip decompressor: data handed to it is accepted without an error and never answered (see above: no
answer changes), for every data, and for `UnmarshalFrom` all of it is said to remain. -/
theorem C246_gzip_accepts_violated (L : Lib) (d : Dec) (b : Bytes) :
    ∃ d', d.put .gzip L (.unmarshal b) = some (d', 0, [], false) ∧ d.put .gzip L (.unmarshalFrom b) = some (d', 0, b, false) ∧
      ∀ ks, d'.run .gzip L ks = d.run .gzip L ks :=
  ⟨_, rfl, by simp [Dec.put, Dec.unmarshalFrom, Dec.unmarshal, sliceFrom], fun ks => Dec.run_zr L ks d _⟩

/-- **C164**: encoding into a codec that takes the bytes it is given hands it the compressed contents. -/
theorem C164_encode (fl : Flavor) (L : Lib) (s : Nat) (l : Int) (hl : L.level l = true) (w : World) (x : Bytes) (hx : w s = some x)
    (decode : Bytes × Bool → Nat × Bool) :
    ∃ c, (compress s l).1.encode fl L w decode = some (c, decode (L.comp l x, false)) := by
  simp [compress, Comp.encode, Comp.marshal, Comp.ready, Comp.init, Comp.encodeAll, hx, hl]

/-- Case: a destination that counts. -/
example : ((compress 0 6).1.encode .gzip toyLib (fun _ => some [7, 8]) fun m => (m.1.length, m.2)).map (·.2) = some (3, false) := by
  decide

theorem Dec.call_kept (fl : Flavor) (L : Lib) (w : World) (d : Dec) (x : Bytes) (hd : d.data = some x) (k : Call) :
    d.call fl L w k = some (d, answer x k) := by
  cases k <;> simp [Dec.call, Dec.marshal, Dec.marshalTo, Dec.len, Dec.ready, hd, answer]

theorem Chain.run_kept (fl : Flavor) (L : Lib) (c : Chain) (x : Bytes) (hd : c.dec.data = some x) (ks : List (World × Call)) :
    c.run fl L ks = some (ks.map fun k => answer x k.2) := by
  induction ks with
  | nil => rfl
  | cons wk ks ih =>
    obtain ⟨w, k⟩ := wk
    simp only [Chain.run, Chain.call, hd]
    rw [if_neg (by simp), Dec.call_kept fl L _ c.dec x hd k]
    simp only [Option.map_some, Option.bind_some]
    rw [ih]
    rfl

/-- **C164**: what is compressed and decompressed again, by the objects the compress types answer, is what the source held: for gzip when
the decompressor was made, for deflate when it was first read. Afterwards the answers stay, whatever happens to the source. -/
theorem C164_chain (fl : Flavor) (L : Lib) (s : Nat) (l : Int) (hl : L.level l = true)
    (hlib : ∀ x, L.header (L.comp l x) = true ∧ L.dec (L.comp l x) = (x, true)) (w0 w : World) (x0 x : Bytes)
    (h0 : w0 s = some x0) (h1 : w s = some x) (k : Call) (ks : List (World × Call)) :
    ∃ c, chain fl L w0 s l = some c ∧
      c.run fl L ((w, k) :: ks) = some (((w, k) :: ks).map fun k => answer (if fl = .gzip then x0 else x) k.2) := by
  cases fl with
  | gzip =>
    refine ⟨⟨⟨some s, l, some (L.comp l x0)⟩, ⟨some 0, .unset, none⟩⟩, ?_, ?_⟩
    · simp [chain, compress, decompress, Comp.len, Comp.ready, Comp.init, Comp.encodeAll, h0, hl, Dec.init]
    · have hc : Chain.call .gzip L w ⟨⟨some s, l, some (L.comp l x0)⟩, ⟨some 0, .unset, none⟩⟩ k =
          some (⟨⟨some s, l, some (L.comp l x0)⟩, ⟨some 0, .ended true, some x0⟩⟩, answer x0 k) := by
        cases k <;> simp [Chain.call, Comp.marshal, Comp.ready, Dec.call, Dec.marshal, Dec.marshalTo, Dec.len, Dec.ready,
          Dec.decompressAll, hlib, answer]
      simp only [Chain.run, hc, Option.bind_some]
      rw [Chain.run_kept .gzip L _ x0 rfl ks]
      rfl
  | flate =>
    refine ⟨⟨⟨some s, l, none⟩, ⟨some 0, .unset, none⟩⟩, ?_, ?_⟩
    · simp [chain, compress, decompress, Comp.init, Dec.init]
    · have hc : Chain.call .flate L w ⟨⟨some s, l, none⟩, ⟨some 0, .unset, none⟩⟩ k =
          some (⟨⟨some s, l, some (L.comp l x)⟩, ⟨some 0, .unset, some x⟩⟩, answer x k) := by
        cases k <;> simp [Chain.call, Comp.marshal, Comp.ready, Comp.encodeAll, h1, hl, Dec.call, Dec.marshal, Dec.marshalTo,
          Dec.len, Dec.ready, Dec.decompressAll, hlib, answer]
      simp only [Chain.run, hc, Option.bind_some]
      rw [Chain.run_kept .flate L _ x rfl ks]
      rfl

/-- Case: the source changes between the making and the reading. -/
example : (chain .gzip toyLib (fun _ => some [7]) 0 6).bind (fun c => c.run .gzip toyLib [((fun _ => some [8]), .marshal)]) =
      some [.bytes [7] false] ∧
    (chain .flate toyLib (fun _ => some [7]) 0 6).bind (fun c => c.run .flate toyLib [((fun _ => some [8]), .marshal)]) =
      some [.bytes [8] false] := by decide

/-- **C164**: a source that fails is reported through the deflate types. -/
theorem C164_chain_flate_error (L : Lib) (s : Nat) (l : Int) (w0 w : World) (hw : w s = none) :
    ∃ c c', chain .flate L w0 s l = some c ∧ c.call .flate L w .marshal = some (c', .bytes [] true) := by
  refine ⟨⟨⟨some s, l, none⟩, ⟨some 0, .unset, none⟩⟩, ⟨⟨some s, l, none⟩, ⟨some 0, .unset, none⟩⟩, ?_, ?_⟩
  · simp [chain, compress, decompress, Comp.init, Dec.init]
  · simp [Chain.call, Comp.marshal, Comp.ready, Comp.encodeAll, hw, Dec.call, Dec.marshal, Dec.ready, Dec.decompressAll]

example := C164_chain_flate_error toyLib 0 6 (fun _ => some [1]) (fun _ => none) rfl

/-- **C246** violated for gzip: a source that fails, when the decompressor is made and when it is read, is answered as empty contents
without an error. -/
theorem C246_chain_gzip_error_violated (L : Lib) (s : Nat) (l : Int) (hh : L.header [] = false) (w0 w : World) (h0 : w0 s = none)
    (hw : w s = none) :
    ∃ c c', chain .gzip L w0 s l = some c ∧ c.call .gzip L w .marshal = some (c', .bytes [] false) := by
  refine ⟨⟨⟨some s, l, none⟩, ⟨some 0, .unset, none⟩⟩, ⟨⟨some s, l, none⟩, ⟨some 0, .ended true, none⟩⟩, ?_, ?_⟩
  · simp [chain, compress, decompress, Comp.len, Comp.ready, Comp.init, Comp.encodeAll, h0, Dec.init]
  · simp [Chain.call, Comp.marshal, Comp.ready, Comp.encodeAll, hw, Dec.call, Dec.marshal, Dec.ready, Dec.decompressAll, hh]

example : toyLib.header [] = false := by decide

/-- **C164**: what is compressed and decompressed has the media type of its source and no compress type; while compressed it has the media type
of its source and the compress type it was compressed with. -/
theorem C164_kinds (fl : Flavor) (src : Kind) :
    (Comp.kind fl src).media = src.media ∧ (Comp.kind fl src).compress = some (if fl = .gzip then bs "gzip" else bs "deflate") ∧
    (Dec.kind (Comp.kind fl src)).media = src.media ∧ (Dec.kind (Comp.kind fl src)).compress = none := ⟨rfl, rfl, rfl, rfl⟩

end Memar.Compress
