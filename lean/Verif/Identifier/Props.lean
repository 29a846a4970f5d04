import Verif.Identifier.Model
import Verif.Binary.Props

/-!
# C30: identifiers carry their creation time
-/

namespace Memar.Identifier
open Memar Binary Binary.Spec

/-- A time in front of any `tail`: eight bytes of seconds and four of nanoseconds, little-endian. -/
theorem stamp (x y tail : Bytes) (hx : x.length = 8) (hy : y.length = 4) (now : Time.Time) :
    ((onSliceFrom (x ++ y ++ tail) 0 fun b => LE.putUint64 b now.sec).bind fun id =>
      onSliceFrom id 8 fun b => LE.putUint32 b now.nsec)
      = some (leDigits 8 now.sec.toNat ++ leDigits 4 now.nsec.toNat ++ tail) := by
  have d8 : (leDigits 8 now.sec.toNat).length = 8 := leDigits_length 8 _
  have h1 : (onSliceFrom (x ++ y ++ tail) 0 fun b => LE.putUint64 b now.sec)
      = some (leDigits 8 now.sec.toNat ++ (y ++ tail)) := by
    have hd : (x ++ y ++ tail).drop 8 = y ++ tail := by
      rw [List.append_assoc, List.drop_left' hx]
    rw [onSliceFrom, sliceFrom, if_pos (by omega)]
    simp only [List.drop_zero, Option.bind_eq_bind, Option.bind_some]
    rw [C01_le64_store, if_pos (by simp; omega), hd]
    simp
  rw [h1]
  simp only [Option.bind_some]
  rw [onSliceFrom, sliceFrom, if_pos (by simp; omega)]
  simp only [Option.bind_eq_bind, Option.bind_some]
  rw [List.drop_left' d8, C01_le32_store, if_pos (by simp; omega), List.drop_left' hy]
  simp [List.take_left' d8]

theorem read64 (v : U64) (r : Bytes) : LE.uint64 (leDigits 8 v.toNat ++ r) = some v := by
  have hp : LE.putUint64 (List.replicate 8 0#8 ++ r) v = some (leDigits 8 v.toNat ++ r) := by
    rw [C01_le64_store, if_pos (by simp), List.drop_left' (by simp)]
  exact (C01_le64_roundtrip _ _ v hp).1

theorem read32 (v : U32) (r : Bytes) : LE.uint32 (leDigits 4 v.toNat ++ r) = some v := by
  have hp : LE.putUint32 (List.replicate 4 0#8 ++ r) v = some (leDigits 4 v.toNat ++ r) := by
    rw [C01_le32_store, if_pos (by simp), List.drop_left' (by simp)]
  exact (C01_le32_roundtrip _ _ v hp).1

theorem bindSome {α β} (a : α) (f : α → Option β) : (some a).bind f = f a := rfl

theorem unstamp (tail : Bytes) (now : Time.Time) :
    (sliceFrom (leDigits 8 now.sec.toNat ++ leDigits 4 now.nsec.toNat ++ tail) 0).bind LE.uint64
      = some now.sec ∧
    (sliceFrom (leDigits 8 now.sec.toNat ++ leDigits 4 now.nsec.toNat ++ tail) 8).bind LE.uint32
      = some now.nsec := by
  have d8 : (leDigits 8 now.sec.toNat).length = 8 := leDigits_length 8 _
  rw [List.append_assoc]
  constructor
  · rw [sliceFrom, if_pos (Nat.zero_le _), bindSome, List.drop_zero, read64]
  · rw [sliceFrom, if_pos (by rw [List.length_append]; omega), List.drop_left' d8, bindSome, read32]

theorem read12 (id rnd : Bytes) (h : 12 ≤ id.length) :
    ∃ x y : Bytes, x.length = 8 ∧ y.length = 4 ∧
      readInto id 12 rnd = x ++ y ++ goCopy (id.drop 12) rnd := by
  refine ⟨(id.take 12).take 8, (id.take 12).drop 8, by simp; omega, by simp; omega, ?_⟩
  rw [List.take_append_drop, readInto]

theorem goCopy_full (dst src : Bytes) (h : src.length = dst.length) : goCopy dst src = src := by
  simp [goCopy, ← h]

/-! ## 16-byte identifiers -/

/-- C30: a new identifier shows the time it was made at and the random bytes it was given, whatever
the variable held before. -/
theorem C30_new16 (old rnd : Bytes) (hold : old.length = 16) (hrnd : rnd.length = 4)
    (now : Time.Time) :
    ∃ u, U16B.new old rnd now = some u ∧ u.length = 16 ∧ U16B.existenceTime u = some now ∧
      U16B.id u = rnd := by
  obtain ⟨x, y, hx, hy, hr⟩ := read12 old rnd (by omega)
  rw [goCopy_full _ _ (by simp; omega)] at hr
  have d8 : (leDigits 8 now.sec.toNat).length = 8 := leDigits_length 8 _
  have d4 : (leDigits 4 now.nsec.toNat).length = 4 := leDigits_length 4 _
  obtain ⟨u1, u2⟩ := unstamp rnd now
  refine ⟨leDigits 8 now.sec.toNat ++ leDigits 4 now.nsec.toNat ++ rnd, ?_, ?_, ?_, ?_⟩
  · rw [U16B.new, hr]
    exact stamp x y rnd hx hy now
  · simp; omega
  · rw [U16B.existenceTime, U16B.secondElapsed, U16B.nanoSecondElapsed, u1, u2]; rfl
  · rw [U16B.id, List.drop_left' (by simp; omega), goCopy_full _ _ (by simp; omega)]

example : U16B.new (List.replicate 16 9#8) [1, 2, 3, 4] ⟨258#64, 5#32⟩
    = some [2, 1, 0, 0, 0, 0, 0, 0, 5, 0, 0, 0, 1, 2, 3, 4] := by decide

/-- C30: hashed identifiers carry the time and the first bytes of the hash. -/
theorem C30_newHash16 (sum : Bytes → Bytes) (hsum : ∀ d, (sum d).length = 32) (old data : Bytes)
    (hold : old.length = 16) (now : Time.Time) :
    ∃ u, U16B.newHash sum old data now = some u ∧ U16B.existenceTime u = some now ∧
      U16B.id u = (sum data).take 4 := by
  have hs := hsum data
  have hc : goCopy (old.drop 12) (sum data) = (sum data).take 4 := by
    simp [goCopy, hold, hs]
  obtain ⟨u1, u2⟩ := unstamp ((sum data).take 4) now
  refine ⟨leDigits 8 now.sec.toNat ++ leDigits 4 now.nsec.toNat ++ (sum data).take 4, ?_, ?_, ?_⟩
  · rw [U16B.newHash, hc]
    have : old.take 12 = (old.take 12).take 8 ++ (old.take 12).drop 8 := (List.take_append_drop ..).symm
    rw [this]
    exact stamp _ _ _ (by simp; omega) (by simp; omega) now
  · rw [U16B.existenceTime, U16B.secondElapsed, U16B.nanoSecondElapsed, u1, u2]; rfl
  · rw [U16B.id, List.drop_left' (by simp [leDigits_length]), goCopy_full _ _ (by simp; omega)]

example := C30_newHash16 (fun d => (d ++ List.replicate 32 0).take 32) (fun d => by simp) (List.replicate 16 9#8) (bs "data") (by decide)
  ⟨258#64, 5#32⟩

/-- C30: two identifiers are equal only if made at the same time with the same random bytes. -/
theorem C30_unique16 (o o' r r' : Bytes) (ho : o.length = 16) (ho' : o'.length = 16)
    (hr : r.length = 4) (hr' : r'.length = 4) (t t' : Time.Time)
    (h : U16B.new o r t = U16B.new o' r' t') : t = t' ∧ r = r' := by
  obtain ⟨u, h1, _, h2, h3⟩ := C30_new16 o r ho hr t
  obtain ⟨u', h1', _, h2', h3'⟩ := C30_new16 o' r' ho' hr' t'
  rw [h1, h1'] at h
  have hu : u = u' := by injection h
  subst hu
  rw [h2] at h2'
  rw [h3] at h3'
  exact ⟨by injection h2', h3'⟩

example := C30_unique16 (List.replicate 16 9#8) (List.replicate 16 7#8) [1, 2, 3, 4] [1, 2, 3, 4] (by decide) (by decide) (by decide)
  (by decide) ⟨258#64, 5#32⟩ ⟨258#64, 5#32⟩ (by decide)

/-- C188: when the random source fails at once, identifiers made at the same time in variables with
the same content are equal: the error is ignored. -/
theorem C188_random_failure_violated (old : Bytes) (hold : old.length = 16) (now : Time.Time) :
    ∃ u, U16B.new old [] now = some u ∧ U16B.id u = old.drop 12 := by
  obtain ⟨x, y, hx, hy, hr⟩ := read12 old [] (by omega)
  refine ⟨leDigits 8 now.sec.toNat ++ leDigits 4 now.nsec.toNat ++ 
    goCopy (old.drop 12) [], ?_, ?_⟩
  · rw [U16B.new, hr]
    exact stamp x y _ hx hy now
  · rw [U16B.id, List.drop_left' (by simp [leDigits_length])]
    simp [goCopy, hold]
    rw [List.take_of_length_le]
    simp; omega

example := C188_random_failure_violated (List.replicate 16 9#8) (by decide) ⟨258#64, 5#32⟩

/-- The byte-wise (dictionary) order of identifiers. -/
def byteLt (a b : Bytes) : Bool := List.lex a b (fun x y => decide (x < y))

/-- C188: the documentation calls the identifiers incremental by time; the byte order is not
chronological: of two identifiers made one second apart the later one can sort first. -/
theorem C188_incremental_violated :
    ∃ u v, U16B.new (List.replicate 16 0#8) [0, 0, 0, 0] ⟨255#64, 0#32⟩ = some u ∧
      U16B.new (List.replicate 16 0#8) [0, 0, 0, 0] ⟨256#64, 0#32⟩ = some v ∧ byteLt v u = true := by
  exact ⟨_, _, rfl, rfl, by decide⟩

/-- C30: an identifier made only from random bytes is those bytes, whatever the variable held. -/
theorem C30_newRandom16 (old rnd : Bytes) (hold : old.length = 16) (hrnd : rnd.length = 16) :
    U16B.newRandom old rnd = rnd := by
  simp only [U16B.newRandom, readInto, goCopy, List.take_zero, List.nil_append, List.drop_zero]
  rw [List.take_of_length_le (by omega), List.drop_of_length_le (by omega), List.append_nil]

example : U16B.newRandom (List.replicate 16 9#8) (List.replicate 16 1#8) = List.replicate 16 1#8 := by decide

/-! ## 32-byte identifiers -/

/-- C30: 32-byte identifiers: time and random part. -/
theorem C30_new32 (old rnd : Bytes) (hold : old.length = 32) (hrnd : rnd.length = 20)
    (now : Time.Time) :
    ∃ u, U32B.new old rnd now = some u ∧ u.length = 32 ∧ U32B.existenceTime u = some now ∧
      u.drop 12 = rnd := by
  obtain ⟨x, y, hx, hy, hr⟩ := read12 old rnd (by omega)
  rw [goCopy_full _ _ (by simp; omega)] at hr
  have d8 : (leDigits 8 now.sec.toNat).length = 8 := leDigits_length 8 _
  have d4 : (leDigits 4 now.nsec.toNat).length = 4 := leDigits_length 4 _
  obtain ⟨u1, u2⟩ := unstamp rnd now
  refine ⟨leDigits 8 now.sec.toNat ++ leDigits 4 now.nsec.toNat ++ rnd, ?_, ?_, ?_, ?_⟩
  · rw [U32B.new, hr]
    exact stamp x y rnd hx hy now
  · simp; omega
  · rw [U32B.existenceTime, U32B.secondElapsed, U32B.nanoSecondElapsed, u1, u2]; rfl
  · rw [List.drop_left' (by simp; omega)]

example : ∃ u, U32B.new (List.replicate 32 9#8) (List.replicate 20 7#8) ⟨258#64, 5#32⟩ = some u ∧
    u.take 12 = [2, 1, 0, 0, 0, 0, 0, 0, 5, 0, 0, 0] := ⟨_, rfl, by decide⟩

/-- C188: the short form of a time-based 32-byte identifier is just the second it was made in: all
identifiers of one second share it. -/
theorem C188_id32_violated (old rnd : Bytes) (hold : old.length = 32) (now : Time.Time) :
    (U32B.new old rnd now).bind U32B.id = some now.sec := by
  obtain ⟨x, y, hx, hy, hr⟩ := read12 old rnd (by omega)
  have hs := stamp x y (goCopy (old.drop 12) rnd) hx hy now
  rw [U32B.new, hr]
  unfold U32B.setSecondElapsed U32B.setNanoInSecondElapsed
  rw [hs]
  exact (unstamp _ now).1

example := C188_id32_violated (List.replicate 32 9#8) (List.replicate 20 7#8) (by decide) ⟨258#64, 5#32⟩

/-- C30: the short form of a hashed identifier is the first 64 bits of the hash, and the stored
short forms agree with the computed ones. -/
theorem C30_generated (sum enc : Bytes → Bytes) (hsum : ∀ d, (sum d).length = 32) (data : Bytes) :
    ∃ g, U32B.Generated.newHashString sum enc data = some g ∧ g.uid = sum data ∧
      g.id = BitVec.ofNat 64 (leVal ((sum data).take 8)) ∧ g.idAsString = enc ((sum data).take 8) := by
  have hs := hsum data
  have h1 : U32B.id (U32B.newHash sum data) = some (BitVec.ofNat 64 (leVal ((sum data).take 8))) := by
    rw [U32B.id, U32B.newHash, sliceFrom, if_pos (by omega)]
    simp only [List.drop_zero, Option.bind_some]
    rw [C01_le64_load, if_pos (by omega)]
  have h2 : U32B.idAsString enc (U32B.newHash sum data) = some (enc ((sum data).take 8)) := by
    rw [U32B.idAsString, U32B.newHash, sliceTo, if_pos (by omega)]; rfl
  refine ⟨⟨sum data, BitVec.ofNat 64 (leVal ((sum data).take 8)), enc ((sum data).take 8)⟩, ?_, rfl, rfl,
    rfl⟩
  rw [U32B.Generated.newHashString, h1, h2]; rfl

example := C30_generated (fun d => (d ++ List.replicate 32 0).take 32) List.reverse (fun d => by simp) (bs "domain/name")

/-- C30: reading back the text of a short form gives the short form, for any codec that decodes what
it encodes. -/
theorem C30_id_text (enc : Bytes → Bytes) (dec : Bytes → Bytes × Bool)
    (hcodec : ∀ b, dec (enc b) = (b, true)) (id : Bytes) (h : id.length = 32) :
    (U32B.idAsString enc id).bind (U32B.idFromString dec) = U32B.id id := by
  rw [U32B.idAsString, sliceTo, if_pos (by omega), Option.map_some, bindSome, U32B.idFromString, hcodec]
  dsimp only
  rw [if_pos (by simp; omega), if_pos rfl, goCopy_full _ _ (by simp; omega), U32B.id, sliceFrom,
    if_pos (Nat.zero_le _), bindSome, List.drop_zero, C01_le64_load, C01_le64_load,
    if_pos (by simp; omega), if_pos (by omega), List.take_take]
  rfl

example := C30_id_text List.reverse (fun s => (s.reverse, true)) (fun b => by simp) (List.replicate 20 7#8 ++ List.replicate 12 9#8) (by decide)

/-- C188: a text that does not decode is read as zero without an error, when at most eight bytes were written before the bad place. -/
theorem C188_bad_id_text_violated (dec : Bytes → Bytes × Bool) (s : Bytes) (h : (dec s).2 = false) (hw : (dec s).1.length ≤ 8) :
    U32B.idFromString dec s = some 0#64 := by
  rw [U32B.idFromString, if_pos hw, h]; rfl

example := C188_bad_id_text_violated (fun s => if s = bs "?" then ([], false) else (s, true)) (bs "?") (by decide) (by decide)

/-- C30: whatever the decoder yields, up to eight bytes are read as a number in little-endian order, and more
than eight make the call panic, whether or not the text was good. -/
theorem C30_id_text_any (dec : Bytes → Bytes × Bool) (s b : Bytes) (ok : Bool) (h : dec s = (b, ok)) :
    U32B.idFromString dec s =
      if 8 < b.length then none else if ok then some (BitVec.ofNat 64 (leVal b)) else some 0#64 := by
  rw [U32B.idFromString, h]
  dsimp only
  by_cases hb : b.length ≤ 8
  · rw [if_pos hb, if_neg (show ¬ 8 < b.length by omega), C01_le64_load,
      if_pos (show 8 ≤ (goCopy (List.replicate 8 0#8) b).length by simp [goCopy]; omega)]
    have ht : (goCopy (List.replicate 8 0#8) b).take 8 = b ++ List.replicate (8 - b.length) 0#8 := by
      rw [List.take_of_length_le (by simp [goCopy]; omega)]
      simp only [goCopy, List.length_replicate, List.take_of_length_le hb, List.drop_replicate]
    have hz : ∀ (b : Bytes) (k : Nat), leVal (b ++ List.replicate k 0#8) = leVal b := by
      intro b k
      induction b with
      | nil =>
        induction k with
        | zero => rfl
        | succ k ih => rw [List.nil_append, List.replicate_succ, leVal.eq_def]; rw [List.nil_append] at ih; simp only [ih]; rfl
      | cons x b ih => rw [List.cons_append, leVal, leVal, ih]
    rw [ht, hz]
  · rw [if_neg hb, if_pos (show 8 < b.length by omega)]

example : U32B.idFromString (fun _ => ([1, 1], true)) (bs "AQE") = some 257#64 := by decide +kernel
example : U32B.idFromString (fun _ => (List.replicate 9 1, false)) (bs "AQEBAQEBAQEB?") = none := by decide +kernel

/-! ## 8-byte identifiers -/

/-- C188: the part of an 8-byte identifier that is meant to be random is its last three bytes. -/
theorem C188_id8 (u : Bytes) (h : u.length = 8) : U8B.id u = u.drop 5 := by
  simp only [U8B.id, goCopy, List.length_replicate]
  rw [List.take_of_length_le (by simp; omega)]
  simp [h]

example := C188_id8 [1, 2, 3, 4, 5, 6, 7, 8] rfl

/-- C188: the 8-byte identifier contains no random byte: identifiers made in the same second are
equal, whatever the random source yields and whatever the variables held. -/
theorem C188_new8_violated (old rnd old' rnd' : Bytes) (h : old.length = 8) (h' : old'.length = 8)
    (t t' : Time.Time) (hs : t.sec = t'.sec) :
    ∃ u, U8B.new old rnd t = some u ∧ U8B.new old' rnd' t' = some u := by
  have key : ∀ (o r : Bytes) (t : Time.Time), o.length = 8 →
      U8B.new o r t = some (leDigits 8 (t.sec <<< 24).toNat) := by
    intro o r t ho
    have hl : (readInto o 5 r).length = 8 := by
      simp only [readInto, goCopy, List.length_append, List.length_take, List.length_drop]; omega
    rw [U8B.new, U8B.setSecondElapsed, onSliceFrom, sliceFrom, if_pos (by omega)]
    simp only [List.drop_zero, Option.bind_eq_bind, Option.bind_some]
    rw [C01_le64_store, if_pos (by omega)]
    have : (readInto o 5 r).drop 8 = [] := by rw [List.drop_eq_nil_iff]; omega
    simp [this]
  exact ⟨_, key old rnd t h, by rw [key old' rnd' t' h', hs]⟩

example := C188_new8_violated (List.replicate 8 9#8) [1, 2, 3] (List.replicate 8 7#8) [4, 5, 6] (by decide) (by decide) ⟨258#64, 5#32⟩
  ⟨258#64, 6#32⟩ rfl

/-- C188: the same for hashed 8-byte identifiers: the data do not matter. -/
theorem C188_newHash8_violated (sum : Bytes → Bytes) (old d d' : Bytes) (h : old.length = 8)
    (t : Time.Time) : U8B.newHash sum old d t = U8B.newHash sum old d' t := by
  have key : ∀ d, U8B.newHash sum old d t = some (leDigits 8 (t.sec <<< 24).toNat) := by
    intro d
    have hl : (old.take 5 ++ goCopy (old.drop 5) (sum d)).length = 8 := by
      simp only [goCopy, List.length_append, List.length_take, List.length_drop]; omega
    rw [U8B.newHash, U8B.setSecondElapsed, onSliceFrom, sliceFrom, if_pos (by omega)]
    simp only [List.drop_zero, Option.bind_eq_bind, Option.bind_some]
    rw [C01_le64_store, if_pos (by omega)]
    have : (old.take 5 ++ goCopy (old.drop 5) (sum d)).drop 8 = [] := by
      rw [List.drop_eq_nil_iff]; omega
    simp [this]
  rw [key, key]

example := C188_newHash8_violated List.reverse (List.replicate 8 9#8) (bs "one") (bs "other") (by decide) ⟨258#64, 5#32⟩

/-- C188: the 8-byte identifier shows its second as long as the second fits in 40 bits (signed);
the time within the second is lost.
Missing: the random part, the order, the short forms, and failures that must be reported
(refuted: `C188_random_failure_violated`, `C188_incremental_violated`, `C188_id32_violated` and
others). -/
theorem C188_new8_partial (old rnd : Bytes) (h : old.length = 8) (t : Time.Time)
    (lo : -(2 ^ 39) ≤ t.sec.toInt) (hi : t.sec.toInt < 2 ^ 39) :
    (U8B.new old rnd t).bind U8B.existenceTime = some ⟨t.sec, 0#32⟩ := by
  have hl : (readInto old 5 rnd).length = 8 := by
    simp only [readInto, goCopy, List.length_append, List.length_take, List.length_drop]; omega
  have hd : (readInto old 5 rnd).drop 8 = [] := by rw [List.drop_eq_nil_iff]; omega
  have hn : U8B.new old rnd t = some (leDigits 8 (t.sec <<< 24).toNat) := by
    rw [U8B.new, U8B.setSecondElapsed, onSliceFrom, sliceFrom, if_pos (by omega)]
    simp only [List.drop_zero, Option.bind_eq_bind, Option.bind_some]
    rw [C01_le64_store, if_pos (by omega)]
    simp [hd]
  have d8 : (leDigits 8 (t.sec <<< 24).toNat).length = 8 := leDigits_length 8 _
  have hlt := (t.sec <<< 24).isLt
  have hr := read64 (t.sec <<< 24) []
  rw [List.append_nil] at hr
  rw [hn, bindSome, U8B.existenceTime, U8B.secondElapsed, sliceFrom, if_pos (Nat.zero_le _), bindSome,
    List.drop_zero, hr, Option.map_some, Option.map_some]
  have hs : (t.sec <<< 24).sshiftRight (64 - 40) = t.sec := by
    apply BitVec.eq_of_toInt_eq
    rw [BitVec.toInt_sshiftRight]
    have : (t.sec <<< 24).toInt = t.sec.toInt * 2 ^ 24 := by
      rw [BitVec.toInt_shiftLeft, Nat.shiftLeft_eq]
      have := BitVec.toInt_eq_toNat_bmod t.sec
      rw [Int.natCast_mul, ← Int.bmod_mul_bmod, ← this]
      exact Int.bmod_eq_of_le (by omega) (by omega)
    rw [this, Int.shiftRight_eq_div_pow]
    exact Int.mul_ediv_cancel _ (by omega)
  rw [hs]

example : (U8B.new (List.replicate 8 9#8) [1, 2, 3] ⟨1700000000#64, 5#32⟩).bind U8B.existenceTime
    = some ⟨1700000000#64, 0#32⟩ := by decide

end Memar.Identifier
