import Verif.Shared.TextLemmas

/-!
# Texts decoded from bytes (C286)

Specification: a text is kept when it shows the same bytes in the memory as it is later (`textOf`); the packet is reused when other bytes
are put into the same slice.
-/

namespace Memar.Shared
open Memar.Convert

/-- Specification: both memories show the same bytes in the slice. -/
def Spec.same (h g : Heap) (b : SliceHeader) : Prop := bytesOf g b = bytesOf h b

theorem inside_text (h : Heap) (t : StringHeader) (b : SliceHeader) (hin : Spec.inside t.data t.len b) :
    textOf h t = ((bytesOf h b).drop (t.data - b.data)).take t.len := by
  obtain ⟨h1, h2⟩ := hin
  unfold textOf bytesOf
  rw [read_drop _ _ _ _ (by omega), read_take _ _ _ _ (by omega)]
  congr 1; omega

theorem bytesOf_put (h : Heap) (b : SliceHeader) (q : Bytes) (hq : q.length = b.len) : bytesOf (put h b.data q) b = q := by
  unfold bytesOf; rw [← hq]; exact read_put_same _ _ _

/-! ## `json` -/

/-- C286 violated: a key decoded with `DecodeKey` is the bytes of the buffer: when the buffer is used for the next document `q`, the key
shows what stands in `q` at its place. -/
theorem C286_key_violated (h : Heap) (b : SliceHeader) (q : Bytes) (hq : q.length = b.len) :
    ∃ k, textOf h (keyAt h b).2 = (({ buf := bytesOf h b } : Json.Decoder).decodeKey).2 ∧
      textOf h (keyAt h b).2 = ((bytesOf h b).drop k).take (keyAt h b).2.len ∧
      textOf (put h b.data q) (keyAt h b).2 = (q.drop k).take (keyAt h b).2.len := by
  obtain ⟨e1, _, e3⟩ := keyAt_spec h b
  refine ⟨(keyAt h b).2.data - b.data, e1, ?_⟩
  rcases e3 with e3 | e3
  · simp [textOf, read, e3]
  · refine ⟨inside_text h _ b e3, ?_⟩
    rw [inside_text _ _ b e3, bytesOf_put h b q hq]

/-- The memory holding a text from address 0 on. -/
def holding (p : Bytes) : Heap := (fresh ⟨fun _ => 0, 0⟩ p 0).1

example : textOf (holding (bs "{\"key\":1}")) (keyAt (holding (bs "{\"key\":1}")) ⟨0, 9, 9⟩).2 = bs "key" ∧
    textOf (put (holding (bs "{\"key\":1}")) 0 (bs "{\"abc\":2}")) (keyAt (holding (bs "{\"key\":1}")) ⟨0, 9, 9⟩).2 = bs "abc" := by
  decide +kernel

/-- C286 violated: the same for the decoder of minified text. -/
theorem C286_min_key_violated (h : Heap) (b : SliceHeader) (r : SliceHeader × StringHeader) (hr : minKeyAt h b = some r) (q : Bytes)
    (hq : q.length = b.len) :
    ∃ k d, ({ buf := bytesOf h b } : Json.Decoder).minKey = some d ∧ textOf h r.2 = d.2 ∧
      textOf h r.2 = ((bytesOf h b).drop k).take r.2.len ∧ textOf (put h b.data q) r.2 = (q.drop k).take r.2.len := by
  obtain ⟨e1, e2⟩ := minKeyAt_spec h b
  have hin := e2 r hr
  rw [hr] at e1
  cases ed : ({ buf := bytesOf h b } : Json.Decoder).minKey with
  | none => rw [ed] at e1; cases e1
  | some d =>
    rw [ed] at e1
    simp only [Option.map_some, Option.some.injEq, Prod.mk.injEq] at e1
    refine ⟨r.2.data - b.data, d, rfl, e1.2, inside_text h _ b hin, ?_⟩
    rw [inside_text _ _ b hin, bytesOf_put h b q hq]

example : (minKeyAt (holding (bs "{\"key\":1}")) ⟨0, 9, 9⟩).isSome ∧
    ((minKeyAt (holding (bs "{\"key\":1}")) ⟨0, 9, 9⟩).map fun r => textOf (put (holding (bs "{\"key\":1}")) 0 (bs "{\"abc\":2}")) r.2) =
      some (bs "abc") := by
  decide +kernel

/-- **C286** the part that holds: keys decoded from a buffer are kept as long as the buffer shows the same bytes, whatever else
happens to the memory. Missing: a buffer that is used again, see `C286_key_violated`. -/
theorem C286_key_kept_partial (h g : Heap) (b : SliceHeader) (hs : Spec.same h g b) :
    textOf g (keyAt h b).2 = (({ buf := bytesOf h b } : Json.Decoder).decodeKey).2 ∧
    ∀ r, minKeyAt h b = some r → textOf g r.2 = textOf h r.2 := by
  obtain ⟨e1, _, e3⟩ := keyAt_spec h b
  have hs' : bytesOf g b = bytesOf h b := hs
  refine ⟨?_, fun r hr => ?_⟩
  · rw [← e1]
    rcases e3 with e3 | e3
    · simp [textOf, read, e3]
    · rw [inside_text _ _ b e3, inside_text _ _ b e3, hs']
  · have hin := (minKeyAt_spec h b).2 r hr
    rw [inside_text _ _ b hin, inside_text _ _ b hin, hs']

example : Spec.same (holding (bs "{\"key\":1}")) (put (holding (bs "{\"key\":1}")) 20 (bs "zzz")) ⟨0, 9, 9⟩ ∧
    textOf (put (holding (bs "{\"key\":1}")) 20 (bs "zzz")) (keyAt (holding (bs "{\"key\":1}")) ⟨0, 9, 9⟩).2 = bs "key" := by
  unfold Spec.same
  decide +kernel

/-- **C286** the part that holds: a string value decoded with `DecodeString`, of both safe decoders, is a copy: it stays, whatever is
written later to any memory that was in use when it was decoded. Missing: keys, see `C286_key_violated`. -/
theorem C286_value_kept_partial (h : Heap) (b : SliceHeader) :
    (∀ t, (stringAt h b).2.2 = some t →
      (({ buf := bytesOf h b } : Json.Decoder).stringBody).2 = .ok (textOf (stringAt h b).1 t) ∧
      ∀ a q, a + q.length ≤ h.next → textOf (put (stringAt h b).1 a q) t = textOf (stringAt h b).1 t) ∧
    (∀ r, minStringAt h b = some r →
      (({ buf := bytesOf h b } : Json.Decoder).minString).map (·.2) = some (textOf r.1 r.2.2) ∧
      ∀ a q, a + q.length ≤ h.next → textOf (put r.1 a q) r.2.2 = textOf r.1 r.2.2) := by
  obtain ⟨s1, s2⟩ := stringAt_spec h b
  obtain ⟨m1, m2⟩ := minStringAt_spec h b
  refine ⟨fun t ht => ⟨?_, fun a q ha => ?_⟩, fun r hr => ⟨?_, fun a q ha => ?_⟩⟩
  · rw [← s1, ht]
  · exact read_put_apart _ _ _ _ _ (Or.inr (by have := s2 t ht; omega))
  · rw [← m1, hr]; rfl
  · exact read_put_apart _ _ _ _ _ (Or.inr (by have := m2 r hr; omega))

example : (holding (bs "\"val\",")).next = 6 ∧
    ((stringAt (holding (bs "\"val\",")) ⟨0, 6, 6⟩).2.2.map fun t => textOf (put (stringAt (holding (bs "\"val\",")) ⟨0, 6, 6⟩).1 0 (bs "XXXXXX")) t) =
      some (bs "val") := by
  decide +kernel

/-- **C286** the part that holds: decoding a key or a string value, with both safe decoders, leaves the buffer as it was and the next call the bytes
behind what was decoded, as the byte model says. Missing: a buffer that is used again, see `C286_key_violated`. -/
theorem C286_rest_partial (h : Heap) (b : SliceHeader) (hb : Held h b) :
    bytesOf h (keyAt h b).1 = (({ buf := bytesOf h b } : Json.Decoder).decodeKey).1.buf ∧
    (minKeyAt h b).map (fun r => bytesOf h r.1) = (({ buf := bytesOf h b } : Json.Decoder).minKey).map (·.1.buf) ∧
    bytesOf (stringAt h b).1 b = bytesOf h b ∧
    bytesOf (stringAt h b).1 (stringAt h b).2.1 = (({ buf := bytesOf h b } : Json.Decoder).stringBody).1.buf ∧
    (∀ r, minStringAt h b = some r → bytesOf r.1 b = bytesOf h b) ∧
    (minStringAt h b).map (fun r => bytesOf r.1 r.2.1) = (({ buf := bytesOf h b } : Json.Decoder).minString).map (·.1.buf) := by
  obtain ⟨hb1, hb2⟩ := hb
  have keep : ∀ s t : SliceHeader, t.data + t.len ≤ b.data + b.len → bytesOf (copyText h s).1 t = bytesOf h t := by
    intro s t ht
    exact (read_iff _ _ _ _).mpr fun k hk => (copyText_spec h s).2.2 _ (by omega)
  refine ⟨(keyAt_spec h b).2.1, ?_, ?_, ?_, ?_, ?_⟩
  · have := congrArg (Option.map Prod.fst) (minKeyAt_spec h b).1
    simpa [Function.comp_def] using this
  · unfold stringAt
    simp only []
    split
    · rfl
    · exact keep _ _ (Nat.le_refl _)
  · obtain ⟨t1, t2, t3⟩ := trimAt_spec h b
    unfold stringAt Json.Decoder.stringBody
    simp only []
    rw [← t1]
    cases e : indexByte (bytesOf h (trimAt h b)) (ch '"') with
    | none => exact t1
    | some loc =>
      have hl := index_lt h _ _ _ e
      simp only []
      rw [keep _ _ (by simp only [sFrom]; omega), bytesOf_sFrom h _ _ (by omega)]
  · intro r hr
    unfold minStringAt at hr
    split at hr
    · cases hr; exact keep _ _ (Nat.le_refl _)
    · split at hr
      · cases hr
      · cases hr; exact keep _ _ (Nat.le_refl _)
  · unfold minStringAt Json.Decoder.minString
    simp only []
    cases e : indexByte (bytesOf h b) (ch '"') with
    | some loc =>
      have hl := index_lt h _ _ _ e
      simp only [Option.map_some]
      rw [keep _ _ (by simp only [sFrom]; omega), bytesOf_sFrom h _ _ (by omega)]
    | none =>
      have hn : (bytesOf h b = []) ↔ b.len = 0 := by
        rw [← List.length_eq_zero_iff, bytesOf_length]
      by_cases h0 : b.len = 0
      · simp [h0, hn.2 h0]
      · simp only [h0, if_false, Option.map_some, if_neg (mt hn.1 h0)]
        rw [keep _ _ (by simp only [sFrom]; omega)]
        simp [bytesOf, sFrom, read]

example := C286_rest_partial (holding (bs "\"val\",")) ⟨0, 6, 6⟩ ⟨by decide, by decide +kernel⟩

/-- C286 violated: a string value decoded with the unsafe decoders is the bytes of the buffer: it is what the safe decoder would answer, and when
the buffer is used for the next document `q`, it shows what stands in `q` at its place. -/
theorem C286_unsafe_value_violated (h : Heap) (b : SliceHeader) (q : Bytes) (hq : q.length = b.len) (t : StringHeader) :
    ((unsafeStringAt h b).2 = some t →
      (({ buf := bytesOf h b } : Json.Decoder).stringBody).2 = .ok (textOf h t) ∧
      ∃ k, textOf h t = ((bytesOf h b).drop k).take t.len ∧ textOf (put h b.data q) t = (q.drop k).take t.len) ∧
    (∀ r, unsafeMinStringAt h b = some r → r.2 = some t →
      (({ buf := bytesOf h b } : Json.Decoder).unsafeMinString).map (·.2) = some (.ok (textOf h t)) ∧
      ∃ k, textOf h t = ((bytesOf h b).drop k).take t.len ∧ textOf (put h b.data q) t = (q.drop k).take t.len) := by
  have place : Spec.inside t.data t.len b →
      ∃ k, textOf h t = ((bytesOf h b).drop k).take t.len ∧ textOf (put h b.data q) t = (q.drop k).take t.len := fun hin =>
    ⟨t.data - b.data, inside_text h t b hin, by rw [inside_text _ t b hin, bytesOf_put h b q hq]⟩
  obtain ⟨_, e2, e3⟩ := unsafeStringAt_spec h b
  obtain ⟨m1, m2⟩ := unsafeMinStringAt_spec h b
  refine ⟨fun ht => ⟨?_, place (e3 t ht)⟩, fun r hr ht => ⟨?_, place (m2 r t hr ht)⟩⟩
  · rw [← e2, ht]; rfl
  · have := congrArg (Option.map Prod.snd) m1
    simp only [Option.map_map, Function.comp_def, hr, Option.map_some, ht, answerAt] at this
    exact this.symm

example : (unsafeStringAt (holding (bs " \"val\",")) ⟨0, 7, 7⟩).2 = some ⟨2, 3⟩ ∧
    textOf (put (holding (bs " \"val\",")) 0 (bs " \"XYZ\",")) ⟨2, 3⟩ = bs "XYZ" ∧
    unsafeMinStringAt (holding (bs "\"val\",")) ⟨0, 6, 6⟩ = some (⟨5, 1, 1⟩, some ⟨1, 3⟩) := by
  decide +kernel

/-- **C286** the part that holds: a string value decoded with the unsafe decoders is kept as long as the buffer shows the same bytes, whatever
else happens to the memory, and both decoders leave the bytes behind the value to the next call as the byte model says. Missing: a buffer that is used
again, see `C286_unsafe_value_violated`. -/
theorem C286_unsafe_value_kept_partial (h g : Heap) (b : SliceHeader) (hs : Spec.same h g b) :
    (∀ t, (unsafeStringAt h b).2 = some t → textOf g t = textOf h t) ∧
    bytesOf g (unsafeStringAt h b).1 = (({ buf := bytesOf h b } : Json.Decoder).stringBody).1.buf ∧
    (∀ r t, unsafeMinStringAt h b = some r → r.2 = some t → textOf g t = textOf h t) ∧
    (unsafeMinStringAt h b).map (fun r => bytesOf g r.1) = (({ buf := bytesOf h b } : Json.Decoder).unsafeMinString).map (·.1.buf) := by
  have hs' : bytesOf g b = bytesOf h b := hs
  have keep : ∀ t : StringHeader, Spec.inside t.data t.len b → textOf g t = textOf h t := fun t hin => by
    rw [inside_text g t b hin, inside_text h t b hin, hs']
  obtain ⟨e1, _, e3⟩ := unsafeStringAt_spec h b
  obtain ⟨m1, m2⟩ := unsafeMinStringAt_spec h b
  refine ⟨fun t ht => keep t (e3 t ht), ?_, fun r t hr ht => keep t (m2 r t hr ht), ?_⟩
  · rw [← e1]
    refine keep ⟨(unsafeStringAt h b).1.data, (unsafeStringAt h b).1.len⟩ ?_
    obtain ⟨_, t2, t3⟩ := trimAt_spec h b
    unfold unsafeStringAt
    simp only []
    cases e : indexByte (bytesOf h (trimAt h b)) (ch '"') with
    | none => exact ⟨t2, t3⟩
    | some loc =>
      have := index_lt h _ _ loc e
      simp only [sFrom, Spec.inside]; omega
  · have := congrArg (Option.map Prod.fst) m1
    simp only [Option.map_map, Function.comp_def] at this
    rw [← this]
    cases hr : unsafeMinStringAt h b with
    | none => rfl
    | some r =>
      simp only [Option.map_some, Option.some.injEq]
      refine keep ⟨r.1.data, r.1.len⟩ ?_
      unfold unsafeMinStringAt at hr
      split at hr
      · split at hr
        · cases hr; simp only [sFrom, Spec.inside]; omega
        · next loc e =>
          have := index_lt h _ _ loc e
          cases hr; simp only [sFrom, Spec.inside] at this ⊢; omega
      · cases hr

example : Spec.same (holding (bs " \"val\",")) (put (holding (bs " \"val\",")) 20 (bs "zzz")) ⟨0, 7, 7⟩ ∧
    (unsafeStringAt (holding (bs " \"val\",")) ⟨0, 7, 7⟩).2 = some ⟨2, 3⟩ ∧
    textOf (put (holding (bs " \"val\",")) 20 (bs "zzz")) ⟨2, 3⟩ = bs "val" := by
  unfold Spec.same
  decide +kernel

/-! ## `file` -/

/-- C286 violated: the path and the name of a file address decoded with `Unmarshal` are the bytes given: when the slice is used again for `q`, they
show what stands in `q` at their places. -/
theorem C286_file_address_violated (h : Heap) (d : SliceHeader) (q : Bytes) (hq : q.length = d.len) :
    (textOf h (fileUnmarshal h d).1, textOf h (fileUnmarshal h d).2) = File.filepathSplit (bytesOf h d) ∧
    textOf (put h d.data q) (fileUnmarshal h d).1 = q.take (File.filepathSplit (bytesOf h d)).1.length ∧
    textOf (put h d.data q) (fileUnmarshal h d).2 = q.drop (File.filepathSplit (bytesOf h d)).1.length := by
  obtain ⟨e1, e2, e3⟩ := fileUnmarshal_spec h d
  have l1 : (File.filepathSplit (bytesOf h d)).1.length = (fileUnmarshal h d).1.len := by rw [← e1]; exact textOf_length _ _
  refine ⟨e1, ?_, ?_⟩
  · rw [inside_text _ _ d e2, bytesOf_put h d q hq, l1]
    have : (fileUnmarshal h d).1.data = d.data := by
      unfold fileUnmarshal splitAt; split <;> rfl
    rw [this, Nat.sub_self, List.drop_zero]
  · rw [inside_text _ _ d e3, bytesOf_put h d q hq, l1]
    have hx : (fileUnmarshal h d).2.data = d.data + (fileUnmarshal h d).1.len ∧
        (fileUnmarshal h d).2.len = d.len - (fileUnmarshal h d).1.len := by
      unfold fileUnmarshal splitAt; split <;> simp [unsafeByteSliceToString]
    rw [hx.1, hx.2, show d.data + (fileUnmarshal h d).1.len - d.data = (fileUnmarshal h d).1.len by omega,
      List.take_of_length_le (by simp [hq])]

example : (textOf (holding (bs "/a/bc.d")) (fileUnmarshal (holding (bs "/a/bc.d")) ⟨0, 7, 7⟩).2) = bs "bc.d" ∧
    textOf (put (holding (bs "/a/bc.d")) 0 (bs "1234567")) (fileUnmarshal (holding (bs "/a/bc.d")) ⟨0, 7, 7⟩).2 = bs "4567" := by
  decide +kernel

/-! ## `net/uri` -/

/-- Every text of the URI satisfies `P`. -/
def LUri.All (P : StringHeader → Prop) (u : LUri) : Prop := P u.scheme ∧ P u.authority ∧ P u.path ∧ P u.query ∧ P u.fragment

theorem all_sub (P : StringHeader → Prop) (s : StringHeader) (hP : ∀ i j t, sub s i j = some t → P t) (i j : Nat) (f : StringHeader → LScan)
    (hf : ∀ t, P t → (f t).u.All P) (st : LScan) (e : (sub s i j).map f = some st) : st.u.All P := by
  cases es : sub s i j with
  | none => rw [es] at e; cases e
  | some t => rw [es] at e; cases e; exact hf t (hP i j t es)

theorem all_subU (P : StringHeader → Prop) (s : StringHeader) (hP : ∀ i j t, sub s i j = some t → P t) (i j : Nat) (f : StringHeader → LUri)
    (hf : ∀ t, P t → (f t).All P) (u : LUri) (e : (sub s i j).map f = some u) : u.All P := by
  cases es : sub s i j with
  | none => rw [es] at e; cases e
  | some t => rw [es] at e; cases e; exact hf t (hP i j t es)

theorem lScan_all (P : StringHeader → Prop) (h : Heap) (s : StringHeader) (o : Bool) (hP : ∀ i j t, sub s i j = some t → P t) :
    ∀ (n i : Nat) (st : LScan), (textOf h s).length - i ≤ n → st.u.All P → ∀ r, lScan h s o i st = some r → r.1.u.All P := by
  intro n
  induction n with
  | zero =>
    intro i st hn hst r hr
    have e : (textOf h s)[i]? = none := List.getElem?_eq_none (by omega)
    rw [lScan_none _ _ _ _ _ e] at hr
    cases hr; exact hst
  | succ n ih =>
    intro i st hn hst r hr
    cases e : (textOf h s)[i]? with
    | none => rw [lScan_none _ _ _ _ _ e] at hr; cases hr; exact hst
    | some c =>
      have hi : i < s.len := by
        have := (List.getElem?_eq_some_iff.mp e).1
        rwa [textOf_length] at this
      obtain ⟨a1, a2, a3, a4, a5⟩ := hst
      have bnd : ∀ (x : Option LScan), (∀ st', x = some st' → st'.u.All P) → x.bind (lScan h s o (i + 1)) = some r → r.1.u.All P := by
        intro x hx hb
        cases x with
        | none => cases hb
        | some st' => exact ih (i + 1) st' (by omega) (hx st' rfl) r hb
      rw [lScan_some _ _ _ _ _ _ e] at hr
      split at hr
      · split at hr
        · refine ih (i + 3) _ (by omega) ?_ r hr
          refine ⟨?_, a2, a3, a4, a5⟩
          exact hP 0 i _ (by simp only [sub, if_pos (show 0 ≤ i ∧ i ≤ s.len by omega)]; rfl)
        · exact ih (i + 1) _ (by omega) ⟨a1, a2, a3, a4, a5⟩ r hr
      · split at hr
        · refine bnd _ (fun st' e' => ?_) hr
          unfold lSlash at e'
          split at e'
          · refine all_sub P s hP _ _ _ ?_ st' e'; intro t ht; exact ⟨a1, ht, a3, a4, a5⟩
          · split at e'
            · refine all_sub P s hP _ _ _ ?_ st' e'; intro t ht; exact ⟨a1, ht, a3, a4, a5⟩
            · cases e'; exact ⟨a1, a2, a3, a4, a5⟩
        · split at hr
          · refine bnd _ (fun st' e' => ?_) hr
            unfold lQuestion at e'
            split at e'
            · refine all_sub P s hP _ _ _ ?_ st' e'; intro t ht; exact ⟨a1, a2, ht, a4, a5⟩
            · cases e'; exact ⟨a1, a2, a3, a4, a5⟩
          · split at hr
            · refine bnd _ (fun st' e' => ?_) hr
              unfold lNumber at e'
              split at e'
              · split at e'
                · refine all_sub P s hP _ _ _ ?_ st' e'; intro t ht; exact ⟨a1, a2, ht, a4, a5⟩
                · refine all_sub P s hP _ _ _ ?_ st' e'; intro t ht; exact ⟨a1, a2, a3, ht, a5⟩
              · cases e'; exact ⟨a1, a2, a3, a4, a5⟩
            · split at hr
              · cases hr; exact ⟨a1, a2, a3, a4, a5⟩
              · exact ih (i + 1) _ (by omega) ⟨a1, a2, a3, a4, a5⟩ r hr

theorem lFromString_all (P : StringHeader → Prop) (h : Heap) (u : LUri) (s : StringHeader) (hP : ∀ i j t, sub s i j = some t → P t)
    (hu : u.All P) (r : LUri × Nat) (hr : lFromString h u s = some r) :
    r.1.All P ∧ r.1.uri = ⟨s.data, r.2⟩ ∧ r.2 ≤ s.len ∧ r.1.raw = some ⟨s.data, r.2, r.2⟩ := by
  have last : ∀ (u' : LUri) (e : Nat), u'.All P →
      ((sub s 0 e).map fun t => (({ u' with uri := t, raw := some (unsafeStringToByteSlice t) } : LUri), e)) = some r →
      r.1.All P ∧ r.1.uri = ⟨s.data, r.2⟩ ∧ r.2 ≤ s.len ∧ r.1.raw = some ⟨s.data, r.2, r.2⟩ := by
    intro u' e hu' he
    unfold sub at he
    split at he
    · next hc =>
      cases he
      exact ⟨hu', by simp, hc.2, by simp [unsafeStringToByteSlice]⟩
    · cases he
  unfold lFromString at hr
  cases e0 : (textOf h s)[0]? with
  | none => rw [e0] at hr; cases hr
  | some c =>
    rw [e0] at hr
    simp only [] at hr
    split at hr
    · exact last u 1 hu hr
    · cases es : lScan h s (decide (c = ch '/')) 0 { u := u } with
      | none => rw [es] at hr; cases hr
      | some q =>
        obtain ⟨st, e⟩ := q
        rw [es] at hr
        simp only [] at hr
        obtain ⟨a1, a2, a3, a4, a5⟩ := lScan_all P h s _ hP _ 0 { u := u } (Nat.le_refl _) hu _ es
        cases ef : lFinish s st e with
        | none => rw [ef] at hr; cases hr
        | some u' =>
          rw [ef] at hr
          refine last u' e ?_ hr
          unfold lFinish at ef
          cases e1 : lEndPath s st e st.u with
          | none => rw [e1] at ef; cases ef
          | some u1 =>
            rw [e1] at ef
            simp only [Option.bind_some] at ef
            have k1 : u1.All P := by
              unfold lEndPath at e1
              split at e1
              · refine all_subU P s hP _ _ _ ?_ u1 e1; intro t ht; exact ⟨a1, a2, ht, a4, a5⟩
              · cases e1; exact ⟨a1, a2, a3, a4, a5⟩
            obtain ⟨b1, b2, b3, b4, b5⟩ := k1
            cases e2 : lEndFragment s st e u1 with
            | none => rw [e2] at ef; cases ef
            | some u2 =>
              rw [e2] at ef
              simp only [Option.bind_some] at ef
              have k2 : u2.All P := by
                unfold lEndFragment at e2
                split at e2
                · refine all_subU P s hP _ _ _ ?_ u2 e2; intro t ht; exact ⟨b1, b2, b3, b4, ht⟩
                · cases e2; exact ⟨b1, b2, b3, b4, b5⟩
              obtain ⟨c1, c2, c3, c4, c5⟩ := k2
              unfold lEndQuery at ef
              split at ef
              · refine all_subU P s hP _ _ _ ?_ u' ef; intro t ht; exact ⟨c1, c2, c3, ht, c5⟩
              · cases ef; exact ⟨c1, c2, c3, c4, c5⟩

/-- A text that shows nothing or lies inside the slice. -/
def Spec.part (b : SliceHeader) (t : StringHeader) : Prop := t.len = 0 ∨ Spec.inside t.data t.len b

theorem part_sub (b : SliceHeader) : ∀ i j t, sub (unsafeByteSliceToString b) i j = some t → Spec.part b t := by
  intro i j t e
  unfold sub at e
  split at e
  · next hc =>
    cases e
    right
    simp only [unsafeByteSliceToString] at hc
    simp only [unsafeByteSliceToString, Spec.inside]; omega
  · cases e

theorem part_text (h g : Heap) (b : SliceHeader) (hs : bytesOf g b = bytesOf h b) (t : StringHeader) (ht : Spec.part b t) :
    textOf g t = textOf h t := by
  rcases ht with ht | ht
  · simp [textOf, read, ht]
  · rw [inside_text _ _ b ht, inside_text _ _ b ht, hs]

theorem new_all (b : SliceHeader) : LUri.All (Spec.part b) {} := ⟨Or.inl rfl, Or.inl rfl, Or.inl rfl, Or.inl rfl, Or.inl rfl⟩

/-- C286 violated: a URI decoded with `Unmarshal` or `UnmarshalFrom` keeps the packet: when the packet is used again for `q`, `URI()` shows the
beginning of `q`, and the scheme, authority, path, query and fragment show what stands in `q` at their places. -/
theorem C286_uri_reused_violated (h : Heap) (b : SliceHeader) (r : LUri × Nat) (hr : lFromString h {} (unsafeByteSliceToString b) = some r)
    (q : Bytes) (hq : q.length = b.len) :
    Uri.unmarshalFromString {} (bytesOf h b) = some (r.1.view h, r.2) ∧
    textOf h r.1.uri = (bytesOf h b).take r.2 ∧ textOf (put h b.data q) r.1.uri = q.take r.2 ∧
    ∀ t ∈ [r.1.scheme, r.1.authority, r.1.path, r.1.query, r.1.fragment],
      ∃ k, textOf h t = ((bytesOf h b).drop k).take t.len ∧ textOf (put h b.data q) t = (q.drop k).take t.len := by
  obtain ⟨⟨a1, a2, a3, a4, a5⟩, k2, k3, _⟩ := lFromString_all (Spec.part b) h {} (unsafeByteSliceToString b) (part_sub b) (new_all b) r hr
  have hv := lFromString_view h {} (unsafeByteSliceToString b)
  rw [hr] at hv
  have hz : LUri.view h {} = {} := by simp [LUri.view, textOf, read]
  rw [hz] at hv
  have hin : Spec.inside r.1.uri.data r.1.uri.len b := by
    rw [k2]; simp only [unsafeByteSliceToString, Spec.inside] at k3 ⊢; omega
  have hd : r.1.uri.data - b.data = 0 := by rw [k2]; simp [unsafeByteSliceToString]
  have hl : r.1.uri.len = r.2 := by rw [k2]
  refine ⟨hv.symm, ?_, ?_, ?_⟩
  · rw [inside_text h _ b hin, hd, hl]; simp
  · rw [inside_text _ _ b hin, bytesOf_put h b q hq, hd, hl]; simp
  · have main : ∀ t, Spec.part b t → ∃ k, textOf h t = ((bytesOf h b).drop k).take t.len ∧ textOf (put h b.data q) t = (q.drop k).take t.len := by
      intro t ht
      rcases ht with ht | ht
      · exact ⟨0, by simp [textOf, read, ht], by simp [textOf, read, ht]⟩
      · exact ⟨t.data - b.data, inside_text h _ b ht, by rw [inside_text _ _ b ht, bytesOf_put h b q hq]⟩
    intro t ht
    simp only [List.mem_cons, List.not_mem_nil, or_false] at ht
    rcases ht with rfl | rfl | rfl | rfl | rfl
    · exact main _ a1
    · exact main _ a2
    · exact main _ a3
    · exact main _ a4
    · exact main _ a5

example : ((lFromString (holding (bs "/ab?c=d X")) {} ⟨0, 9⟩).map fun r =>
      (textOf (holding (bs "/ab?c=d X")) r.1.path, textOf (put (holding (bs "/ab?c=d X")) 0 (bs "123456789")) r.1.path,
        textOf (put (holding (bs "/ab?c=d X")) 0 (bs "123456789")) r.1.uri)) = some (bs "/ab", bs "123", bs "1234567") := by
  decide +kernel

/-- **C286** the part that holds: a URI decoded from a packet is kept as long as the packet shows the same bytes, whatever else happens to
the memory: its text and all its parts. Missing: a packet that is used again, see `C286_uri_reused_violated`. -/
theorem C286_uri_kept_partial (h g : Heap) (b : SliceHeader) (hs : Spec.same h g b) (r : LUri × Nat)
    (hr : lFromString h {} (unsafeByteSliceToString b) = some r) :
    Uri.unmarshalFromString {} (bytesOf h b) = some (r.1.view g, r.2) := by
  obtain ⟨⟨a1, a2, a3, a4, a5⟩, k2, k3, k4⟩ := lFromString_all (Spec.part b) h {} (unsafeByteSliceToString b) (part_sub b) (new_all b) r hr
  have hv := lFromString_view h {} (unsafeByteSliceToString b)
  rw [hr] at hv
  have hz : LUri.view h {} = {} := by simp [LUri.view, textOf, read]
  rw [hz] at hv
  have hs' : bytesOf g b = bytesOf h b := hs
  have hin : Spec.part b r.1.uri := by
    right; rw [k2]; simp only [unsafeByteSliceToString, Spec.inside] at k3 ⊢; omega
  have hraw : bytesOf g ⟨b.data, r.2, r.2⟩ = bytesOf h ⟨b.data, r.2, r.2⟩ := by
    have := part_text h g b hs' r.1.uri hin
    rw [k2] at this
    exact this
  have hview : r.1.view g = r.1.view h := by
    unfold LUri.view
    rw [k4, part_text h g b hs' _ hin, part_text h g b hs' _ a1, part_text h g b hs' _ a2, part_text h g b hs' _ a3, part_text h g b hs' _ a4,
      part_text h g b hs' _ a5]
    simp only [Option.map_some, unsafeByteSliceToString, hraw]
  rw [hview]
  exact hv.symm

example : Spec.same (holding (bs "/ab?c=d X")) (put (holding (bs "/ab?c=d X")) 20 (bs "zzz")) ⟨0, 9, 9⟩ ∧
    ((lFromString (holding (bs "/ab?c=d X")) {} ⟨0, 9⟩).map fun r => textOf (put (holding (bs "/ab?c=d X")) 20 (bs "zzz")) r.1.query) =
      some (bs "c=d") := by
  unfold Spec.same
  decide +kernel

/-- C286 violated: `Marshal` of a decoded URI answers the packet it was decoded from: a store into the answer changes what `URI()` shows. -/
theorem C286_marshal_shared_violated (extra : Nat → Nat → Nat) (h : Heap) (b : SliceHeader) (r : LUri × Nat)
    (hr : lFromString h {} (unsafeByteSliceToString b) = some r) (i : Nat) (hi : i < r.2) (c : Byte) (hc : c ≠ h.cells (b.data + i)) :
    ∃ m, r.1.marshal extra h = some (h, m, r.1) ∧ bytesOf h m = textOf h r.1.uri ∧ i < m.len ∧
      textOf (put h (m.data + i) [c]) r.1.uri = (textOf h r.1.uri).set i c ∧ textOf (put h (m.data + i) [c]) r.1.uri ≠ textOf h r.1.uri := by
  obtain ⟨_, k2, k3, k4⟩ := lFromString_all (Spec.part b) h {} (unsafeByteSliceToString b) (part_sub b) (new_all b) r hr
  have st := C284_store_violated h ⟨some ⟨b.data, r.2, r.2⟩, 0⟩ ⟨b.data, r.2, r.2⟩ rfl i hi c
  refine ⟨⟨b.data, r.2, r.2⟩, by simp only [LUri.marshal, k4]; rfl, by rw [k2]; rfl, hi, by rw [k2]; exact st, ?_⟩
  rw [k2]
  intro e
  have := (read_iff _ _ _ _).mp e i hi
  simp only [unsafeByteSliceToString] at this
  rw [put_cells, if_pos (by simp)] at this
  apply hc
  simpa using this

example : ((lFromString (holding (bs "/ab X")) {} ⟨0, 5⟩).map fun r => textOf (put (holding (bs "/ab X")) 1 [ch 'z']) r.1.uri) = some (bs "/zb") := by
  decide +kernel

/-! ### Writing a URI into a packet -/

theorem text_nil (h : Heap) (t : StringHeader) : textOf h t = [] ↔ t.len = 0 := by
  rw [← textOf_length h t, List.length_eq_zero_iff]

theorem pieces_text (h : Heap) (u : LUri) : ((u.pieces).map fun p => p h).flatten = (u.view h).text := by
  unfold LUri.pieces Uri.URI.text LUri.view
  simp only [ne_eq, text_nil]
  by_cases h1 : u.scheme.len = 0 <;> by_cases h2 : u.path.len = 0 <;> by_cases h3 : u.query.len = 0 <;> simp [h1, h2, h3]

/-- What a piece reads does not lie in the room of the packet. -/
def Steady (h : Heap) (s : Option SliceHeader) (p : Heap → Bytes) : Prop :=
  ∀ g : Heap, (∀ x, x < h.next → ¬ Spec.inRoom ⟨s, 0⟩ x → g.cells x = h.cells x) → p g = p h

theorem appendAll_spec (extra : Nat → Nat → Nat) (ps : List (Heap → Bytes)) : ∀ (h : Heap) (s : Option SliceHeader),
    Flat.Ok h ⟨s, 0⟩ → (∀ p ∈ ps, Steady h s p) →
    shown (appendAll extra h s ps).1 (appendAll extra h s ps).2 = shown h s ++ (ps.map fun p => p h).flatten ∧
    Flat.Ok (appendAll extra h s ps).1 ⟨(appendAll extra h s ps).2, 0⟩ ∧
    (∀ x, x < h.next → ¬ Spec.inRoom ⟨s, 0⟩ x → (appendAll extra h s ps).1.cells x = h.cells x) := by
  induction ps with
  | nil => intro h s ho _; exact ⟨by simp [appendAll], ho, fun x _ _ => rfl⟩
  | cons p ps ih =>
    intro h s ho hp
    obtain ⟨w, e, k1, k2, k3, k4⟩ := run_adds extra h ⟨s, 0⟩ ho (.write (p h)) trivial
    have ew : w = ((append extra h s (p h)).1, ⟨(append extra h s (p h)).2, 0⟩) := by
      simp only [BOp.run, Flat.write, Option.some.injEq] at e; exact e.symm
    subst ew
    simp only [] at k1 k2 k3 k4
    have base : ∀ q ∈ ps, q (append extra h s (p h)).1 = q h := fun q hq => hp q (by simp [hq]) _ k3
    have next : ∀ q ∈ ps, Steady (append extra h s (p h)).1 (append extra h s (p h)).2 q := by
      intro q hq g hg
      rw [base q hq]
      refine hp q (by simp [hq]) g fun x hx hr => ?_
      rw [hg x (by omega) fun hr' => hr (k4 x hx hr'), k3 x hx hr]
    obtain ⟨i1, i2, i3⟩ := ih _ _ k1 next
    refine ⟨?_, i2, fun x hx hr => ?_⟩
    rotate_left
    · simp only [appendAll]
      rw [i3 x (by omega) fun hr' => hr (k4 x hx hr'), k3 x hx hr]
    simp only [appendAll]
    rw [i1, append_shown]
    simp only [List.map_cons, List.flatten_cons, List.append_assoc]
    congr 2
    congr 1
    exact List.map_congr_left base

/-- Specification: the text lies in memory in use, away from the room behind the packet. -/
def Spec.clear (h : Heap) (s : Option SliceHeader) (t : StringHeader) : Prop :=
  t.data + t.len ≤ h.next ∧ ∀ p, s = some p → t.data + t.len ≤ p.data + p.len ∨ p.data + p.cap ≤ t.data

theorem clear_steady (h : Heap) (s : Option SliceHeader) (t : StringHeader) (ht : Spec.clear h s t) : Steady h s (fun g => textOf g t) := by
  intro g hg
  refine read_congr _ _ _ _ fun k hk => hg _ (by have := ht.1; omega) ?_
  rintro ⟨p, e, h1, h2⟩
  have := ht.2 p e
  omega

theorem pieces_steady (h : Heap) (s : Option SliceHeader) (u : LUri) (hu : u.All (Spec.clear h s)) : ∀ p ∈ u.pieces, Steady h s p := by
  obtain ⟨a1, a2, a3, a4, _⟩ := hu
  intro p hp
  have const : ∀ c : Bytes, Steady h s (fun _ => c) := fun c g _ => rfl
  simp only [LUri.pieces, List.mem_append, List.mem_cons, List.not_mem_nil, or_false] at hp
  rcases hp with (hp | hp) | hp
  · split at hp
    · simp only [List.mem_cons, List.not_mem_nil, or_false] at hp
      rcases hp with rfl | rfl
      · exact clear_steady h s _ a1
      · exact const _
    · cases hp
  · rcases hp with rfl | rfl
    · exact clear_steady h s _ a2
    · split
      · exact const _
      · exact clear_steady h s _ a3
  · split at hp
    · simp only [List.mem_cons, List.not_mem_nil, or_false] at hp
      rcases hp with rfl | rfl
      · exact const _
      · exact clear_steady h s _ a4
    · cases hp

theorem uri_text_ne (u : Uri.URI) : u.text ≠ [] := by
  unfold Uri.URI.text
  by_cases h : u.path = []
  · simp [h]
  · simp [h]

theorem marshalTo_spec (extra : Nat → Nat → Nat) (h : Heap) (u : LUri) (s : Option SliceHeader) (ho : Flat.Ok h ⟨s, 0⟩)
    (hu : u.All (Spec.clear h s)) :
    ∃ g r, u.marshalTo' extra h s = some (g, r, { u with raw := some (sFrom r (shown h s).length), uri := unsafeByteSliceToString (sFrom r (shown h s).length) }) ∧
      bytesOf g r = shown h s ++ (u.view h).text ∧ Held g r ∧
      (∀ x, x < h.next → ¬ Spec.inRoom ⟨s, 0⟩ x → g.cells x = h.cells x) := by
  obtain ⟨k1, k2, k3⟩ := appendAll_spec extra u.pieces h s ho (pieces_steady h s u hu)
  rw [pieces_text] at k1
  cases e : (appendAll extra h s u.pieces).2 with
  | none =>
    rw [e] at k1
    have h0 : (shown h s ++ (u.view h).text).length = 0 := by rw [← k1]; rfl
    have hne := uri_text_ne (u.view h)
    simp only [List.length_append] at h0
    exact absurd (List.length_eq_zero_iff.mp (by omega)) hne
  | some r =>
    rw [e] at k1 k2
    refine ⟨_, r, by simp only [LUri.marshalTo', e, Option.map_some], k1, k2 r rfl, k3⟩

/-- C286 violated: a URI with no text of its own that is written into a packet keeps that part of the packet as its text: when the packet is used again
for `q`, `URI()` shows what stands there in `q`. -/
theorem C286_written_violated (extra : Nat → Nat → Nat) (h : Heap) (u : LUri) (hraw : u.raw = none) (p : SliceHeader) (hp : Held h p)
    (hu : u.All (Spec.clear h (some p))) :
    ∃ g r v, u.marshalTo extra h (some p) = some (g, some r, v) ∧ bytesOf g r = bytesOf h p ++ (u.view h).text ∧
      textOf g v.uri = (u.view h).text ∧
      ∀ q : Bytes, q.length = r.len → textOf (put g r.data q) v.uri = q.drop p.len := by
  obtain ⟨g, r, e, k1, k2, _⟩ := marshalTo_spec extra h u (some p) (fun t et => by cases et; exact hp) hu
  have hl : (shown h (some p)).length = p.len := by simp [shown, bytesOf]
  rw [hl] at e
  have hle : p.len ≤ r.len := by
    have := congrArg List.length k1
    simp only [bytesOf_length, List.length_append, hl] at this
    omega
  refine ⟨g, r, _, by simp only [LUri.marshalTo, hraw, e, Option.map_some]; rfl, k1, ?_, fun q hq => ?_⟩
  · have : textOf g (unsafeByteSliceToString (sFrom r p.len)) = (bytesOf g r).drop p.len := bytesOf_sFrom g r p.len hle
    simp only [this, k1]
    rw [← hl, List.drop_left]
  · have : textOf (put g r.data q) (unsafeByteSliceToString (sFrom r p.len)) = (bytesOf (put g r.data q) r).drop p.len :=
      bytesOf_sFrom _ r p.len hle
    simp only [this, bytesOf_put g r q hq]

/-- A URI with a path at addresses 0 … 3 of the memory. -/
def demoUri : LUri := { path := ⟨0, 4⟩ }

example : demoUri.All (Spec.clear (holding (bs "/abcGET ....")) (some ⟨4, 4, 8⟩)) ∧ demoUri.raw = none ∧ Held (holding (bs "/abcGET ....")) ⟨4, 4, 8⟩ ∧
    ((demoUri.marshalTo (fun _ _ => 0) (holding (bs "/abcGET ....")) (some ⟨4, 4, 8⟩)).map fun r =>
      (textOf r.1 r.2.2.uri, textOf (put r.1 4 (bs "12345678")) r.2.2.uri)) = some (bs "/abc", bs "5678") := by
  refine ⟨?_, rfl, ⟨by decide, by decide +kernel⟩, by decide +kernel⟩
  have hn : (holding (bs "/abcGET ....")).next = 12 := by decide +kernel
  refine ⟨⟨?_, ?_⟩, ⟨?_, ?_⟩, ⟨?_, ?_⟩, ⟨?_, ?_⟩, ⟨?_, ?_⟩⟩ <;> simp [demoUri, hn]

/-- **C286** the part that holds: writing a URI into a packet gives the packet's bytes and then the text of the URI as the byte
model says, and the same text again from `URI()` while the packet shows the same bytes. Missing: a packet that is used again, see
`C286_written_violated`. -/
theorem C286_written_kept_partial (extra : Nat → Nat → Nat) (h : Heap) (u : LUri) (hraw : u.raw = none) (p : SliceHeader) (hp : Held h p)
    (hu : u.All (Spec.clear h (some p))) :
    ∃ g r v, u.marshalTo extra h (some p) = some (g, some r, v) ∧ bytesOf g r = bytesOf h p ++ (u.view h).text ∧
      ∀ g', Spec.same g g' r → textOf g' v.uri = (u.view h).text ∧ v.raw.map (bytesOf g') = some (u.view h).text := by
  obtain ⟨g, r, e, k1, k2, _⟩ := marshalTo_spec extra h u (some p) (fun t et => by cases et; exact hp) hu
  have hl : (shown h (some p)).length = p.len := by simp [shown, bytesOf]
  rw [hl] at e
  have hle : p.len ≤ r.len := by
    have := congrArg List.length k1
    simp only [bytesOf_length, List.length_append, hl] at this
    omega
  refine ⟨g, r, _, by simp only [LUri.marshalTo, hraw, e, Option.map_some]; rfl, k1, fun g' hs => ?_⟩
  have hs' : bytesOf g' r = bytesOf g r := hs
  have : bytesOf g' (sFrom r p.len) = (u.view h).text := by
    rw [bytesOf_sFrom g' r p.len hle, hs', k1, ← hl, List.drop_left]
  exact ⟨this, by simp only [Option.map_some, this]⟩

example : ((demoUri.marshalTo (fun _ _ => 0) (holding (bs "/abcGET ....")) (some ⟨4, 4, 8⟩)).map fun r =>
      (shown r.1 r.2.1, textOf r.1 r.2.2.uri)) = some (bs "GET /abc", bs "/abc") := by decide +kernel

/-! ### The calls as the byte model has them -/

theorem view_other (h g : Heap) (u v : LUri) (hu : u.All (fun t => textOf g t = textOf h t)) (e1 : v.scheme = u.scheme) (e2 : v.authority = u.authority)
    (e3 : v.path = u.path) (e4 : v.query = u.query) (e5 : v.fragment = u.fragment) :
    v.view g = { u.view h with uri := textOf g v.uri, raw := v.raw.map (bytesOf g) } := by
  obtain ⟨a1, a2, a3, a4, a5⟩ := hu
  unfold LUri.view
  rw [e1, e2, e3, e4, e5, a1, a2, a3, a4, a5]

theorem clear_all (h : Heap) (s : Option SliceHeader) (u : LUri) (hu : u.All (Spec.clear h s)) (g : Heap)
    (hg : ∀ x, x < h.next → ¬ Spec.inRoom ⟨s, 0⟩ x → g.cells x = h.cells x) : u.All (fun t => textOf g t = textOf h t) := by
  obtain ⟨a1, a2, a3, a4, a5⟩ := hu
  exact ⟨clear_steady h s _ a1 g hg, clear_steady h s _ a2 g hg, clear_steady h s _ a3 g hg, clear_steady h s _ a4 g hg, clear_steady h s _ a5 g hg⟩

/-- **C286** the part that holds: `Unmarshal` and `UnmarshalFrom` decode the packet as the byte model says, also into a URI that was used
before, and leave the rest of the packet. Missing: what happens when the packet is used again, see `C286_uri_reused_violated`. -/
theorem C286_decode_as_bytes_partial (h : Heap) (u : LUri) (b : SliceHeader) :
    (u.unmarshal h b).map (LUri.view h) = (u.view h).unmarshal (bytesOf h b) ∧
    (u.unmarshalFrom h b).map (fun r => (r.1.view h, bytesOf h r.2)) = (u.view h).unmarshalFrom (bytesOf h b) := by
  constructor
  · have := lFromString_view h { u with uri := unsafeByteSliceToString b, raw := some b } (unsafeByteSliceToString b)
    unfold LUri.unmarshal Uri.URI.unmarshal
    rw [show ({ u.view h with uri := bytesOf h b, raw := some (bytesOf h b) } : Uri.URI) =
      LUri.view h { u with uri := unsafeByteSliceToString b, raw := some b } from rfl, show bytesOf h b = textOf h (unsafeByteSliceToString b) from rfl,
      ← this, Option.map_map, Option.map_map]
    rfl
  · have := lFromString_view h u (unsafeByteSliceToString b)
    unfold LUri.unmarshalFrom Uri.URI.unmarshalFrom
    rw [show Uri.unmarshalFromString (u.view h) (bytesOf h b) = _ from this.symm]
    cases lFromString h u (unsafeByteSliceToString b) with
    | none => rfl
    | some r =>
      obtain ⟨v, e⟩ := r
      simp only [Option.map_some, sliceFrom, bytesOf_length]
      by_cases he : e ≤ b.len
      · rw [if_pos he, if_pos he]
        simp only [Option.map_some, bytesOf_sFrom h b e he]
      · rw [if_neg he, if_neg he]; rfl

example : ((demoUri.unmarshalFrom (holding (bs "/ab?c=d HTTP/1.1")) ⟨0, 16, 16⟩).map fun r =>
    (textOf (holding (bs "/ab?c=d HTTP/1.1")) r.1.query, bytesOf (holding (bs "/ab?c=d HTTP/1.1")) r.2)) = some (bs "c=d", bs " HTTP/1.1") := by
  decide +kernel

/-- **C286** the part that holds: `MarshalTo` and `Marshal` answer the bytes of the byte model and leave the URI as it says, when the URI lies
in memory in use and away from the room behind the packet. Missing: a URI whose texts lie in that room, and a packet that is
used again, see `C286_written_violated`. -/
theorem C286_encode_as_bytes_partial (extra : Nat → Nat → Nat) (h : Heap) (u : LUri) (p : SliceHeader) (hp : Held h p)
    (hu : u.All (Spec.clear h (some p))) (hi : Spec.clear h (some p) u.uri) (hr : ∀ b, u.raw = some b → Spec.clear h (some p) ⟨b.data, b.len⟩) :
    (u.marshalTo extra h (some p)).map (fun r => (shown r.1 r.2.1, r.2.2.view r.1)) = some ((u.view h).marshalTo (bytesOf h p)) ∧
    (u.marshal extra h).map (fun r => (bytesOf r.1 r.2.1, r.2.2.view r.1)) = some ((u.view h).marshal) := by
  cases e : u.raw with
  | some b =>
    constructor
    · obtain ⟨w, ew, _, _, k3, _⟩ := run_adds extra h ⟨some p, 0⟩ (fun t et => by cases et; exact hp) (.write (bytesOf h b)) trivial
      have : w = ((append extra h (some p) (bytesOf h b)).1, ⟨(append extra h (some p) (bytesOf h b)).2, 0⟩) := by
        simp only [BOp.run, Flat.write, Option.some.injEq] at ew; exact ew.symm
      subst this
      have hv : u.view (append extra h (some p) (bytesOf h b)).1 = u.view h := by
        rw [view_other h _ u u (clear_all h (some p) u hu _ k3) rfl rfl rfl rfl rfl]
        have h1 : textOf (append extra h (some p) (bytesOf h b)).1 u.uri = textOf h u.uri := clear_steady h (some p) _ hi _ k3
        have h2 : bytesOf (append extra h (some p) (bytesOf h b)).1 b = bytesOf h b := clear_steady h (some p) _ (hr b e) _ k3
        rw [h1, e]
        simp only [Option.map_some, h2]
        unfold LUri.view
        rw [e]; rfl
      simp only [LUri.marshalTo, Uri.URI.marshalTo, e, Option.map_some, append_shown, hv]
      simp only [LUri.view, e, Option.map_some, shown]
    · simp only [LUri.marshal, Uri.URI.marshal, e, Option.map_some]
      simp only [LUri.view, e, Option.map_some]
  | none =>
    have after : ∀ (h' : Heap) (s : SliceHeader), Held h' s → u.All (Spec.clear h' (some s)) → u.view h' = u.view h →
        ∃ g r v, u.marshalTo' extra h' (some s) = some (g, r, v) ∧ bytesOf g r = bytesOf h' s ++ (u.view h).text ∧
          v.view g = { u.view h with raw := some (u.view h).text, uri := (u.view h).text } := by
      intro h' s hs hus hv
      obtain ⟨g, r, e1, k1, k2, k3⟩ := marshalTo_spec extra h' u (some s) (fun t et => by cases et; exact hs) hus
      rw [hv] at k1
      have hl : (shown h' (some s)).length = s.len := by simp [shown, bytesOf]
      rw [hl] at e1
      have hle : s.len ≤ r.len := by
        have := congrArg List.length k1
        simp only [bytesOf_length, List.length_append, hl] at this
        omega
      have hb : bytesOf g (sFrom r s.len) = (u.view h).text := by rw [bytesOf_sFrom g r s.len hle, k1, ← hl, List.drop_left]
      refine ⟨g, r, _, e1, k1, ?_⟩
      refine (view_other h' g u { u with raw := some (sFrom r s.len), uri := unsafeByteSliceToString (sFrom r s.len) }
        (clear_all h' (some s) u hus g k3) rfl rfl rfl rfl rfl).trans ?_
      rw [hv]
      simp only [Option.map_some, hb]
      rw [show textOf g (unsafeByteSliceToString (sFrom r s.len)) = bytesOf g (sFrom r s.len) from rfl, hb]
    constructor
    · obtain ⟨g, r, v, e1, e2, e3⟩ := after h p hp hu rfl
      simp only [LUri.marshalTo, Uri.URI.marshalTo, e, e1, Option.map_some, shown, e2, e3]
      simp only [LUri.view, e, Option.map_none, Uri.URI.marshalTo']
    · obtain ⟨a1, a2, a3, a4, a5⟩ := hu
      have fr : ∀ (n : Nat) (t : StringHeader), Spec.clear h (some p) t →
          Spec.clear (fresh h [] n).1 (some (fresh h [] n).2) t ∧ textOf (fresh h [] n).1 t = textOf h t := by
        intro n t ht
        refine ⟨⟨by have := ht.1; simp only [fresh]; omega, fun q eq => ?_⟩, ?_⟩
        · cases eq; left; have := ht.1; simp only [fresh, List.length_nil]; omega
        · refine read_congr _ _ _ _ fun k hk => ?_
          have := ht.1
          simp only [fresh, put_cells]
          rw [if_neg (by omega)]
      obtain ⟨g, r, v, e1, e2, e3⟩ := after (fresh h [] (4 + (u.scheme.len + u.authority.len + u.path.len + u.query.len + u.fragment.len))).1
        (fresh h [] (4 + (u.scheme.len + u.authority.len + u.path.len + u.query.len + u.fragment.len))).2
        (by constructor <;> simp [fresh])
        ⟨(fr _ _ a1).1, (fr _ _ a2).1, (fr _ _ a3).1, (fr _ _ a4).1, (fr _ _ a5).1⟩
        (by unfold LUri.view
            rw [e, (fr _ _ a1).2, (fr _ _ a2).2, (fr _ _ a3).2, (fr _ _ a4).2, (fr _ _ a5).2, (fr _ _ hi).2]; rfl)
      have hz : ∀ n, bytesOf (fresh h [] n).1 (fresh h [] n).2 = [] := fun n => rfl
      simp only [LUri.marshal, e, e1, Option.map_some]
      rw [show bytesOf g (sFrom r 0) = bytesOf g r from rfl, e2, e3, hz]
      simp only [Uri.URI.marshal, LUri.view, e, Option.map_none, Uri.URI.marshalTo', List.nil_append]

example : demoUri.All (Spec.clear (holding (bs "/abcGET ....")) (some ⟨4, 4, 8⟩)) ∧
    ((demoUri.marshal (fun _ _ => 0) (holding (bs "/abcGET ...."))).map fun r => (bytesOf r.1 r.2.1, textOf r.1 r.2.2.uri)) = some (bs "/abc", bs "/abc") := by
  refine ⟨?_, by decide +kernel⟩
  have hn : (holding (bs "/abcGET ....")).next = 12 := by decide +kernel
  refine ⟨⟨?_, ?_⟩, ⟨?_, ?_⟩, ⟨?_, ?_⟩, ⟨?_, ?_⟩, ⟨?_, ?_⟩⟩ <;> simp [demoUri, hn]

end Memar.Shared
