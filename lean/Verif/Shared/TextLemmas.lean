import Verif.Shared.Texts
import Verif.Shared.BufferProps

/-!
# The located decoders read what the decoders of the byte models read
-/

namespace Memar.Shared
open Memar.Convert

theorem bytesOf_sFrom (h : Heap) (s : SliceHeader) (i : Nat) (hi : i ≤ s.len) : bytesOf h (sFrom s i) = (bytesOf h s).drop i :=
  (read_drop h s.data s.len i hi).symm

theorem bytesOf_sTo (h : Heap) (s : SliceHeader) (j : Nat) (hj : j ≤ s.len) : bytesOf h (sTo s j) = (bytesOf h s).take j :=
  (read_take h s.data s.len j hj).symm

theorem bytesOf_length (h : Heap) (s : SliceHeader) : (bytesOf h s).length = s.len := by simp [bytesOf]

theorem textOf_length (h : Heap) (s : StringHeader) : (textOf h s).length = s.len := by simp [textOf]

theorem index_lt (h : Heap) (b : SliceHeader) (c : Byte) (i : Nat) (e : indexByte (bytesOf h b) c = some i) : i < b.len := by
  have h1 := congrArg List.length (indexByte_some _ _ _ e).1
  simp only [List.length_append, List.length_take, List.length_cons, List.length_drop, bytesOf_length] at h1
  omega

/-- One slice lies inside another. -/
def Spec.inside (data len : Nat) (b : SliceHeader) : Prop := b.data ≤ data ∧ data + len ≤ b.data + b.len

theorem trimAt_spec (h : Heap) (b : SliceHeader) :
    bytesOf h (trimAt h b) = ({ buf := bytesOf h b } : Json.Decoder).trimToStringStart.buf ∧
    Spec.inside (trimAt h b).data (trimAt h b).len b := by
  unfold trimAt Json.Decoder.trimToStringStart
  cases e : indexByte (bytesOf h b) (ch '"') with
  | none => exact ⟨rfl, Nat.le_refl _, Nat.le_refl _⟩
  | some i =>
    have := index_lt h b _ i e
    exact ⟨bytesOf_sFrom h b (i + 1) (by omega), by simp [sFrom], by simp only [sFrom]; omega⟩

theorem trim_token (d : Json.Decoder) :
    d.trimToStringStart.buf = ({ buf := d.buf } : Json.Decoder).trimToStringStart.buf := by
  unfold Json.Decoder.trimToStringStart
  split <;> simp_all

theorem keyAt_spec (h : Heap) (b : SliceHeader) :
    textOf h (keyAt h b).2 = (({ buf := bytesOf h b } : Json.Decoder).decodeKey).2 ∧
    bytesOf h (keyAt h b).1 = (({ buf := bytesOf h b } : Json.Decoder).decodeKey).1.buf ∧
    ((keyAt h b).2.len = 0 ∨ Spec.inside (keyAt h b).2.data (keyAt h b).2.len b) := by
  obtain ⟨t1, t2, t3⟩ := trimAt_spec h b
  unfold keyAt Json.Decoder.decodeKey
  simp only []
  rw [← t1]
  cases e : indexByte (bytesOf h (trimAt h b)) (ch '"') with
  | none => exact ⟨by simp [textOf, read], t1, Or.inl rfl⟩
  | some loc =>
    have hl := index_lt h _ _ loc e
    simp only []
    rw [← bytesOf_sFrom h (trimAt h b) (loc + 1) (by omega)]
    have hk : textOf h (unsafeByteSliceToString (sTo (trimAt h b) loc)) = (bytesOf h (trimAt h b)).take loc :=
      bytesOf_sTo h (trimAt h b) loc (by omega)
    have hin : Spec.inside (unsafeByteSliceToString (sTo (trimAt h b) loc)).data (unsafeByteSliceToString (sTo (trimAt h b) loc)).len b := by
      simp only [unsafeByteSliceToString, sTo, Spec.inside]; omega
    cases e2 : indexByte (bytesOf h (sFrom (trimAt h b) (loc + 1))) (ch ':') with
    | none => exact ⟨hk, rfl, Or.inr hin⟩
    | some l =>
      have := index_lt h _ _ l e2
      exact ⟨hk, bytesOf_sFrom h _ (l + 1) (by omega), Or.inr hin⟩

theorem minKeyAt_spec (h : Heap) (b : SliceHeader) :
    (minKeyAt h b).map (fun r => (bytesOf h r.1, textOf h r.2)) =
      (({ buf := bytesOf h b } : Json.Decoder).minKey).map (fun r => (r.1.buf, r.2)) ∧
    ∀ r, minKeyAt h b = some r → Spec.inside r.2.data r.2.len b := by
  unfold minKeyAt Json.Decoder.minKey Json.Decoder.offset sliceFrom
  simp only [bytesOf_length]
  by_cases h2 : 2 ≤ b.len
  · simp only [if_pos h2, Option.map_some, bind, Option.bind_some, ← bytesOf_sFrom h b 2 h2]
    cases e : indexByte (bytesOf h (sFrom b 2)) (ch '"') with
    | none => exact ⟨rfl, fun r hr => by cases hr⟩
    | some loc =>
      have hl := index_lt h _ _ loc e
      simp only [Option.bind_some, bytesOf_length]
      by_cases h3 : loc + 2 ≤ (sFrom b 2).len
      · simp only [if_pos h3, Option.map_some, Option.bind_some]
        refine ⟨?_, fun r hr => ?_⟩
        · rw [bytesOf_sFrom h _ _ h3]
          have : textOf h (unsafeByteSliceToString (sTo (sFrom b 2) loc)) = (bytesOf h (sFrom b 2)).take loc :=
            bytesOf_sTo h (sFrom b 2) loc (by omega)
          rw [this]
        · cases hr
          simp only [unsafeByteSliceToString, sTo, sFrom, Spec.inside] at hl ⊢; omega
      · simp only [if_neg h3, Option.map_none, Option.bind_none]
        exact ⟨trivial, fun r hr => by cases hr⟩
  · simp only [if_neg h2, Option.map_none, bind, Option.bind_none]
    exact ⟨trivial, fun r hr => by cases hr⟩

theorem copyText_spec (h : Heap) (s : SliceHeader) :
    textOf (copyText h s).1 (copyText h s).2 = bytesOf h s ∧ h.next ≤ (copyText h s).2.data ∧
    ∀ x, x < h.next → (copyText h s).1.cells x = h.cells x := by
  refine ⟨bytesOf_fresh h (bytesOf h s) 0, by simp [copyText, fresh], fun x hx => ?_⟩
  have := (read_iff _ _ x 1).mp (read_fresh_old h (bytesOf h s) 0 x 1 (by omega)) 0 (by omega)
  simpa [copyText] using this

theorem stringAt_spec (h : Heap) (b : SliceHeader) :
    (match (stringAt h b).2.2 with
      | some t => Except.ok (textOf (stringAt h b).1 t)
      | none => Except.error Json.Err.stringCorrupted) = (({ buf := bytesOf h b } : Json.Decoder).stringBody).2 ∧
    ∀ t, (stringAt h b).2.2 = some t → h.next ≤ t.data := by
  obtain ⟨t1, _, _⟩ := trimAt_spec h b
  unfold stringAt Json.Decoder.stringBody
  simp only []
  rw [← t1]
  cases e : indexByte (bytesOf h (trimAt h b)) (ch '"') with
  | none => exact ⟨rfl, fun t ht => by cases ht⟩
  | some loc =>
    have hl := index_lt h _ _ loc e
    obtain ⟨c1, c2, _⟩ := copyText_spec h (sTo (trimAt h b) loc)
    simp only []
    rw [c1, bytesOf_sTo h _ _ (by omega)]
    exact ⟨rfl, fun t ht => by cases ht; exact c2⟩

theorem minStringAt_spec (h : Heap) (b : SliceHeader) :
    (minStringAt h b).map (fun r => textOf r.1 r.2.2) = (({ buf := bytesOf h b } : Json.Decoder).minString).map (·.2) ∧
    ∀ r, minStringAt h b = some r → h.next ≤ r.2.2.data := by
  unfold minStringAt Json.Decoder.minString
  simp only []
  cases e : indexByte (bytesOf h b) (ch '"') with
  | none =>
    simp only []
    have hz : bytesOf h b = [] ↔ b.len = 0 := by rw [← bytesOf_length h b, List.length_eq_zero_iff]
    by_cases h0 : b.len = 0
    · rw [if_pos h0, if_pos (hz.mpr h0)]
      exact ⟨rfl, fun r hr => by cases hr⟩
    · rw [if_neg h0, if_neg (fun hh => h0 (hz.mp hh))]
      obtain ⟨c1, c2, _⟩ := copyText_spec h (sTo b (b.len - 1))
      refine ⟨?_, fun r hr => by cases hr; exact c2⟩
      simp only [Option.map_some]
      rw [c1, bytesOf_sTo h _ _ (by omega), List.dropLast_eq_take, bytesOf_length]
  | some loc =>
    have hl := index_lt h _ _ loc e
    obtain ⟨c1, c2, _⟩ := copyText_spec h (sTo b loc)
    refine ⟨?_, fun r hr => by cases hr; exact c2⟩
    simp only [Option.map_some]
    rw [c1, bytesOf_sTo h _ _ (by omega)]

/-- What a decoder answers when its text lies in the memory. -/
def answerAt (h : Heap) : Option StringHeader → Except Json.Err Bytes
  | some t => .ok (textOf h t)
  | none => .error .stringCorrupted

theorem unsafeStringAt_spec (h : Heap) (b : SliceHeader) :
    bytesOf h (unsafeStringAt h b).1 = (({ buf := bytesOf h b } : Json.Decoder).stringBody).1.buf ∧
    answerAt h (unsafeStringAt h b).2 = (({ buf := bytesOf h b } : Json.Decoder).stringBody).2 ∧
    ∀ t, (unsafeStringAt h b).2 = some t → Spec.inside t.data t.len b := by
  obtain ⟨t1, t2, t3⟩ := trimAt_spec h b
  unfold unsafeStringAt Json.Decoder.stringBody
  simp only []
  rw [← t1]
  cases e : indexByte (bytesOf h (trimAt h b)) (ch '"') with
  | none => exact ⟨t1, rfl, fun t ht => by cases ht⟩
  | some loc =>
    have hl := index_lt h _ _ loc e
    have hk : textOf h (unsafeByteSliceToString (sTo (trimAt h b) loc)) = (bytesOf h (trimAt h b)).take loc :=
      bytesOf_sTo h (trimAt h b) loc (by omega)
    simp only [answerAt, hk]
    refine ⟨bytesOf_sFrom h _ _ (by omega), trivial, fun t ht => ?_⟩
    cases ht
    simp only [unsafeByteSliceToString, sTo, Spec.inside]; omega

theorem unsafeMinStringAt_spec (h : Heap) (b : SliceHeader) :
    (unsafeMinStringAt h b).map (fun r => (bytesOf h r.1, answerAt h r.2)) =
      (({ buf := bytesOf h b } : Json.Decoder).unsafeMinString).map (fun r => (r.1.buf, r.2)) ∧
    ∀ r t, unsafeMinStringAt h b = some r → r.2 = some t → Spec.inside t.data t.len b := by
  unfold unsafeMinStringAt Json.Decoder.unsafeMinString Json.Decoder.offset sliceFrom
  simp only [bytesOf_length]
  by_cases h1 : 1 ≤ b.len
  · simp only [if_pos h1, Option.map_some, ← bytesOf_sFrom h b 1 h1]
    cases e : indexByte (bytesOf h (sFrom b 1)) (ch '"') with
    | none => exact ⟨rfl, fun r t hr ht => by cases hr; cases ht⟩
    | some loc =>
      have hl := index_lt h _ _ loc e
      have hk : textOf h (unsafeByteSliceToString (sTo (sFrom b 1) loc)) = (bytesOf h (sFrom b 1)).take loc :=
        bytesOf_sTo h (sFrom b 1) loc (by omega)
      simp only [answerAt, hk, Option.map_some]
      refine ⟨by rw [bytesOf_sFrom h _ _ (by omega)], fun r t hr ht => ?_⟩
      cases hr; cases ht
      simp only [unsafeByteSliceToString, sTo, sFrom, Spec.inside] at hl ⊢; omega
  · simp only [if_neg h1, Option.map_none]
    exact ⟨trivial, fun r t hr _ => by cases hr⟩

/-! ## `file` -/

theorem lastIndex_lt (s : Bytes) (c : Byte) (i : Nat) (e : lastIndexByte s c = some i) : i < s.length := by
  cases Nat.lt_or_ge i s.length with
  | inl h => exact h
  | inr h =>
    exfalso
    have hmem : c ∈ s := by
      cases Classical.em (c ∈ s) with
      | inl h => exact h
      | inr h => rw [(lastIndexByte_none_iff s c).mpr h] at e; cases e
    obtain ⟨a, b, rfl, hb⟩ : ∃ a b, s = a ++ c :: b ∧ c ∉ b := by
      clear e h
      induction s with
      | nil => cases hmem
      | cons x xs ih =>
        by_cases hx : c ∈ xs
        · obtain ⟨a, b, e1, e2⟩ := ih hx
          exact ⟨x :: a, b, by rw [e1]; rfl, e2⟩
        · simp only [List.mem_cons] at hmem
          rcases hmem with rfl | hm
          · exact ⟨[], xs, rfl, hx⟩
          · exact absurd hm hx
    rw [lastIndexByte_append a b c hb] at e
    cases e
    simp at h
    omega

theorem fileUnmarshal_spec (h : Heap) (d : SliceHeader) :
    (textOf h (fileUnmarshal h d).1, textOf h (fileUnmarshal h d).2) = File.filepathSplit (bytesOf h d) ∧
    Spec.inside (fileUnmarshal h d).1.data (fileUnmarshal h d).1.len d ∧ Spec.inside (fileUnmarshal h d).2.data (fileUnmarshal h d).2.len d := by
  have e0 : textOf h (unsafeByteSliceToString d) = bytesOf h d := rfl
  unfold fileUnmarshal splitAt File.filepathSplit
  rw [e0]
  cases e : lastIndexByte (bytesOf h d) (ch '/') with
  | none =>
    refine ⟨?_, ?_, ?_⟩
    · simp only [textOf, read, List.range_zero, List.map_nil]; rfl
    · simp only [unsafeByteSliceToString, Spec.inside]; omega
    · simp only [unsafeByteSliceToString, Spec.inside]; omega
  | some i =>
    have hi := lastIndex_lt _ _ _ e
    rw [bytesOf_length] at hi
    refine ⟨?_, ?_, ?_⟩
    · simp only [textOf, unsafeByteSliceToString, bytesOf]
      rw [read_take _ _ _ _ (by omega), read_drop _ _ _ _ (by omega)]
    · simp only [unsafeByteSliceToString, Spec.inside]; omega
    · simp only [unsafeByteSliceToString, Spec.inside]; omega

/-! ## `net/uri` -/

theorem sub_text (h : Heap) (s : StringHeader) (i j : Nat) : (sub s i j).map (textOf h) = slice (textOf h s) i j := by
  unfold sub slice
  rw [textOf_length]
  split
  · next hc =>
    simp only [Option.map_some, textOf]
    rw [read_take _ _ _ _ hc.2, read_drop _ _ _ _ hc.1]
  · rfl

/-- The URI of the byte model that shows the same. -/
def LUri.view (h : Heap) (u : LUri) : Uri.URI :=
  { uri := textOf h u.uri, raw := u.raw.map (bytesOf h), scheme := textOf h u.scheme, au := { authority := textOf h u.authority },
    path := textOf h u.path, query := textOf h u.query, fragment := textOf h u.fragment }

/-- The variables of the byte model. -/
def LScan.view (h : Heap) (st : LScan) : Uri.Scan := ⟨st.u.view h, st.aS, st.pS, st.qI, st.nI⟩

theorem map_sub (h : Heap) (s : StringHeader) (i j : Nat) (f : StringHeader → LScan) (g : Bytes → Uri.Scan)
    (hfg : ∀ t, (f t).view h = g (textOf h t)) : ((sub s i j).map f).map (LScan.view h) = (slice (textOf h s) i j).map g := by
  rw [← sub_text h s i j]
  cases sub s i j with
  | none => rfl
  | some t => simp only [Option.map_some, hfg]

theorem map_subU (h : Heap) (s : StringHeader) (i j : Nat) (f : StringHeader → LUri) (g : Bytes → Uri.URI)
    (hfg : ∀ t, (f t).view h = g (textOf h t)) : ((sub s i j).map f).map (LUri.view h) = (slice (textOf h s) i j).map g := by
  rw [← sub_text h s i j]
  cases sub s i j with
  | none => rfl
  | some t => simp only [Option.map_some, hfg]

theorem lSlash_view (h : Heap) (s : StringHeader) (o : Bool) (i : Nat) (st : LScan) :
    (lSlash s o i st).map (LScan.view h) = Uri.onSlash (textOf h s) o i (st.view h) := by
  simp only [lSlash, Uri.onSlash]
  by_cases h1 : st.aS ≠ 0 ∧ st.pS = 0
  · rw [if_pos h1, if_pos (show (st.view h).aS ≠ 0 ∧ (st.view h).pS = 0 from h1)]
    exact map_sub h s _ _ _ _ fun t => rfl
  · rw [if_neg h1, if_neg (show ¬ ((st.view h).aS ≠ 0 ∧ (st.view h).pS = 0) from h1)]
    by_cases h2 : o = false ∧ st.pS = 0 ∧ i ≠ 0
    · rw [if_pos h2, if_pos (show o = false ∧ (st.view h).pS = 0 ∧ i ≠ 0 from h2)]
      exact map_sub h s _ _ _ _ fun t => rfl
    · rw [if_neg h2, if_neg (show ¬ (o = false ∧ (st.view h).pS = 0 ∧ i ≠ 0) from h2)]; rfl

theorem lQuestion_view (h : Heap) (s : StringHeader) (i : Nat) (st : LScan) :
    (lQuestion s i st).map (LScan.view h) = Uri.onQuestion (textOf h s) i (st.view h) := by
  simp only [lQuestion, Uri.onQuestion]
  by_cases h1 : st.qI = 0
  · rw [if_pos h1, if_pos (show (st.view h).qI = 0 from h1)]
    exact map_sub h s _ _ _ _ fun t => rfl
  · rw [if_neg h1, if_neg (show ¬ ((st.view h).qI = 0) from h1)]; rfl

theorem lNumber_view (h : Heap) (s : StringHeader) (i : Nat) (st : LScan) :
    (lNumber s i st).map (LScan.view h) = Uri.onNumber (textOf h s) i (st.view h) := by
  simp only [lNumber, Uri.onNumber]
  by_cases h1 : st.nI = 0
  · rw [if_pos h1, if_pos (show (st.view h).nI = 0 from h1)]
    by_cases h2 : st.qI = 0
    · rw [if_pos h2, if_pos (show (st.view h).qI = 0 from h2)]
      exact map_sub h s _ _ _ _ fun t => rfl
    · rw [if_neg h2, if_neg (show ¬ ((st.view h).qI = 0) from h2)]
      exact map_sub h s _ _ _ _ fun t => rfl
  · rw [if_neg h1, if_neg (show ¬ ((st.view h).nI = 0) from h1)]; rfl

theorem lScan_none (h : Heap) (s : StringHeader) (o : Bool) (i : Nat) (st : LScan) (e : (textOf h s)[i]? = none) :
    lScan h s o i st = some (st, i) := by
  rw [lScan]
  split
  · rfl
  · next e' => rw [e] at e'; cases e'

theorem scan_none (s : Bytes) (o : Bool) (i : Nat) (st : Uri.Scan) (e : s[i]? = none) : Uri.scan s o i st = some (st, i) := by
  rw [Uri.scan]
  split
  · rfl
  · next e' => rw [e] at e'; cases e'

theorem lScan_some (h : Heap) (s : StringHeader) (o : Bool) (i : Nat) (st : LScan) (c : Byte) (e : (textOf h s)[i]? = some c) :
    lScan h s o i st =
      if c = ch ':' then
        if st.aS = 0 then lScan h s o (i + 3) { st with aS := i + 3, u := { st.u with scheme := ⟨s.data, i⟩ } }
        else lScan h s o (i + 1) st
      else if c = ch '/' then (lSlash s o i st).bind (lScan h s o (i + 1))
      else if c = ch '?' then (lQuestion s i st).bind (lScan h s o (i + 1))
      else if c = ch '#' then (lNumber s i st).bind (lScan h s o (i + 1))
      else if c = ch ' ' then some (st, i)
      else lScan h s o (i + 1) st := by
  conv => lhs; rw [lScan]
  split
  · next e' => rw [e] at e'; cases e'
  · next c' e' => rw [e] at e'; cases e'; cases lSlash s o i st <;> cases lQuestion s i st <;> cases lNumber s i st <;> rfl

theorem scan_some (s : Bytes) (o : Bool) (i : Nat) (st : Uri.Scan) (c : Byte) (e : s[i]? = some c) :
    Uri.scan s o i st =
      if c = ch ':' then
        if st.aS = 0 then Uri.scan s o (i + 3) { st with aS := i + 3, u := { st.u with scheme := s.take i } }
        else Uri.scan s o (i + 1) st
      else if c = ch '/' then (Uri.onSlash s o i st).bind (Uri.scan s o (i + 1))
      else if c = ch '?' then (Uri.onQuestion s i st).bind (Uri.scan s o (i + 1))
      else if c = ch '#' then (Uri.onNumber s i st).bind (Uri.scan s o (i + 1))
      else if c = ch ' ' then some (st, i)
      else Uri.scan s o (i + 1) st := by
  conv => lhs; rw [Uri.scan]
  split
  · next e' => rw [e] at e'; cases e'
  · next c' e' =>
    rw [e] at e'; cases e'; cases Uri.onSlash s o i st <;> cases Uri.onQuestion s i st <;> cases Uri.onNumber s i st <;> rfl

theorem lScan_view (h : Heap) (s : StringHeader) (o : Bool) : ∀ (n i : Nat) (st : LScan), (textOf h s).length - i ≤ n →
    (lScan h s o i st).map (fun r => (r.1.view h, r.2)) = Uri.scan (textOf h s) o i (st.view h) := by
  intro n
  induction n with
  | zero =>
    intro i st hn
    have e : (textOf h s)[i]? = none := List.getElem?_eq_none (by omega)
    rw [lScan_none _ _ _ _ _ e, scan_none _ _ _ _ e]; rfl
  | succ n ih =>
    intro i st hn
    cases e : (textOf h s)[i]? with
    | none => rw [lScan_none _ _ _ _ _ e, scan_none _ _ _ _ e]; rfl
    | some c =>
      have bnd : ∀ (x : Option LScan), (x.bind (lScan h s o (i + 1))).map (fun r => (r.1.view h, r.2)) =
          (x.map (LScan.view h)).bind (Uri.scan (textOf h s) o (i + 1)) := by
        intro x
        cases x with
        | none => rfl
        | some st' => exact ih (i + 1) st' (by omega)
      rw [lScan_some _ _ _ _ _ _ e, scan_some _ _ _ _ _ e]
      by_cases h1 : c = ch ':'
      · rw [if_pos h1, if_pos h1]
        by_cases h2 : st.aS = 0
        · rw [if_pos h2, if_pos (show (st.view h).aS = 0 from h2), ih _ _ (by omega)]
          congr 1
          simp only [LScan.view, LUri.view, textOf]
          have hi := (List.getElem?_eq_some_iff.mp e).1
          rw [textOf_length] at hi
          rw [read_take _ _ _ _ (by omega)]
        · rw [if_neg h2, if_neg (show ¬ (st.view h).aS = 0 from h2), ih _ _ (by omega)]
      · rw [if_neg h1, if_neg h1]
        by_cases h2 : c = ch '/'
        · rw [if_pos h2, if_pos h2, bnd, lSlash_view]
        · rw [if_neg h2, if_neg h2]
          by_cases h3 : c = ch '?'
          · rw [if_pos h3, if_pos h3, bnd, lQuestion_view]
          · rw [if_neg h3, if_neg h3]
            by_cases h4 : c = ch '#'
            · rw [if_pos h4, if_pos h4, bnd, lNumber_view]
            · rw [if_neg h4, if_neg h4]
              by_cases h5 : c = ch ' '
              · rw [if_pos h5, if_pos h5]; rfl
              · rw [if_neg h5, if_neg h5]
                exact ih _ _ (by omega)

theorem lFinish_view (h : Heap) (s : StringHeader) (st : LScan) (e : Nat) :
    (lFinish s st e).map (LUri.view h) = Uri.finish (textOf h s) (st.view h) e := by
  have p1 : ∀ u, (lEndPath s st e u).map (LUri.view h) = Uri.endPath (textOf h s) (st.view h) e (u.view h) := by
    intro u
    simp only [lEndPath, Uri.endPath]
    by_cases h1 : st.qI = 0 ∧ st.nI = 0
    · rw [if_pos h1, if_pos (show (st.view h).qI = 0 ∧ (st.view h).nI = 0 from h1)]; exact map_subU h s _ _ _ _ fun t => rfl
    · rw [if_neg h1, if_neg (show ¬ ((st.view h).qI = 0 ∧ (st.view h).nI = 0) from h1)]; rfl
  have p2 : ∀ u, (lEndFragment s st e u).map (LUri.view h) = Uri.endFragment (textOf h s) (st.view h) e (u.view h) := by
    intro u
    simp only [lEndFragment, Uri.endFragment]
    by_cases h1 : st.nI ≠ 0
    · rw [if_pos h1, if_pos (show (st.view h).nI ≠ 0 from h1)]; exact map_subU h s _ _ _ _ fun t => rfl
    · rw [if_neg h1, if_neg (show ¬ ((st.view h).nI ≠ 0) from h1)]; rfl
  have p3 : ∀ u, (lEndQuery s st e u).map (LUri.view h) = Uri.endQuery (textOf h s) (st.view h) e (u.view h) := by
    intro u
    simp only [lEndQuery, Uri.endQuery]
    by_cases h1 : st.qI ≠ 0 ∧ st.nI = 0
    · rw [if_pos h1, if_pos (show (st.view h).qI ≠ 0 ∧ (st.view h).nI = 0 from h1)]; exact map_subU h s _ _ _ _ fun t => rfl
    · rw [if_neg h1, if_neg (show ¬ ((st.view h).qI ≠ 0 ∧ (st.view h).nI = 0) from h1)]; rfl
  unfold lFinish Uri.finish
  rw [show (st.view h).u = st.u.view h from rfl, ← p1]
  cases lEndPath s st e st.u with
  | none => rfl
  | some u1 =>
    simp only [Option.bind_some, Option.map_some, ← p2]
    cases lEndFragment s st e u1 with
    | none => rfl
    | some u2 => simp only [Option.bind_some, Option.map_some, ← p3]

theorem raw_view (h : Heap) (t : StringHeader) : bytesOf h (unsafeStringToByteSlice t) = textOf h t := rfl

theorem sub_to (h : Heap) (s : StringHeader) (j : Nat) : (sub s 0 j).map (textOf h) = sliceTo (textOf h s) j := by
  rw [sub_text]
  unfold slice sliceTo
  simp

theorem lFromString_view (h : Heap) (u : LUri) (s : StringHeader) :
    (lFromString h u s).map (fun r => (r.1.view h, r.2)) = Uri.unmarshalFromString (u.view h) (textOf h s) := by
  have last : ∀ (u' : LUri) (e : Nat), ((sub s 0 e).map fun t => (({ u' with uri := t, raw := some (unsafeStringToByteSlice t) } : LUri), e)).map
      (fun r => (r.1.view h, r.2)) = (sliceTo (textOf h s) e).map fun t => (({ u'.view h with uri := t, raw := some t } : Uri.URI), e) := by
    intro u' e
    rw [← sub_to]
    cases sub s 0 e with
    | none => rfl
    | some t => rfl
  unfold lFromString Uri.unmarshalFromString
  cases e0 : (textOf h s)[0]? with
  | none => rfl
  | some c =>
    simp only []
    by_cases hc : c = ch '*'
    · rw [if_pos hc, if_pos hc]; exact last u 1
    · rw [if_neg hc, if_neg hc]
      have hs := lScan_view h s (decide (c = ch '/')) _ 0 { u := u } (Nat.le_refl _)
      rw [show LScan.view h { u := u } = { u := u.view h } from rfl] at hs
      rw [← hs]
      cases lScan h s (decide (c = ch '/')) 0 { u := u } with
      | none => rfl
      | some r =>
        obtain ⟨st, e⟩ := r
        simp only [Option.map_some, ← lFinish_view]
        cases lFinish s st e with
        | none => rfl
        | some u' => exact last u' e

end Memar.Shared
