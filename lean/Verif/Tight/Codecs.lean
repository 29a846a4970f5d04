import Verif.Compress.Types
import Verif.Json.MoreProps

/-!
# Further theorems about compress types and JSON decoders
-/

namespace Memar.Compress
open Memar CSpec

/-- **C164**: making a compressor or a decompressor never reports an error, and what is made is as told by `Init`: the source
and the level that were given, nothing held yet. -/
theorem C164_made (s t : Nat) (l : Int) :
    (compress s l).2 = false ∧ (decompress t).2 = false ∧
      (compress s l).1 = { source := some s, level := l, data := none } ∧ (decompress t).1.source = some t ∧ (decompress t).1.data = none :=
  ⟨rfl, rfl, rfl, rfl, rfl⟩

example : (compress 3 6).1.source = some 3 ∧ (compress 3 6).1.level = 6 := ⟨rfl, rfl⟩

/-- **C265**: what a gzip decompressor is handed with `Unmarshal` is what it then writes, expanded, to a writer: data that starts like
gzip is written expanded and damage is reported; other data is refused when it is written, nothing being written, except that no data
at all is written as such without an error. Missing: it is
not what `Marshal` and `Len` of the same decompressor tell. -/
theorem C265_unmarshal_stream_partial (L : Lib) (d : Dec) (w : World) (b : Bytes) :
    (L.header b = true → ∃ d', (d.unmarshal .gzip L b).1.writeTo .gzip L w = some (d', (L.dec b).1, (L.dec b).1.length, !(L.dec b).2)) ∧
    (L.header b = false → ∃ d', (d.unmarshal .gzip L b).1.writeTo .gzip L w = some (d', [], 0, !b.isEmpty)) := by
  constructor <;> intro hh <;> simp [Dec.unmarshal, reset, hh, Dec.writeTo]

/-- **C265**: a gzip decompressor is written once for each time it is told what to read: writing it again writes nothing and
reports what it reported before, until it is told something new to read. -/
theorem C265_stream_once (L : Lib) (d : Dec) (w v : World) (b c : Bytes) (hb : L.header b = true) (hc : L.header c = true) :
    ∃ d', (d.readFrom .gzip L b).1.writeTo .gzip L w = some (d', (L.dec b).1, (L.dec b).1.length, !(L.dec b).2) ∧
      d'.writeTo .gzip L v = some (d', [], 0, !(L.dec b).2) ∧
      ∃ d'', (d'.readFrom .gzip L c).1.writeTo .gzip L v = some (d'', (L.dec c).1, (L.dec c).1.length, !(L.dec c).2) := by
  refine ⟨{ d with zr := .ended (L.dec b).2 }, ?_, rfl, ?_⟩ <;> simp [Dec.readFrom, reset, hb, hc, Dec.writeTo]

/-- A library that stores data behind one byte, for the examples. -/
def sampleLib : Lib := ⟨fun l => 0 ≤ l, fun _ x => 31#8 :: x, fun b => b.head? == some 31#8, fun b => (b.drop 1, true)⟩

example : sampleLib.header [31#8, 7#8] = true ∧ sampleLib.header [32#8] = false ∧
    ((({} : Dec).unmarshal .gzip sampleLib [31#8, 7#8]).1.writeTo .gzip sampleLib (fun _ => none)).map (·.2) = some ([7#8], 1, false) := by
  decide

end Memar.Compress

namespace Memar.Json
open Memar

/-- **C162**: a decoder that forgot its token is the decoder a program makes over the text that is left. -/
theorem C162_reset_fresh (left : Bytes) (token : Byte) : ({ buf := left, token := token } : Decoder).resetToken = { buf := left } := rfl

example : ({ buf := bs "1}", token := ch '}' } : Decoder).resetToken = { buf := bs "1}" } := rfl

end Memar.Json
