import Verif.Uri.EscapeSpec

/-! # C10–C12: percent-encoding -/

namespace Memar.Uri
open Memar Spec

/-! ## per-byte facts, by full tables over the 256 bytes -/

theorem shouldEscape_iff : ∀ (m : Mode) (c : Byte), shouldEscape c m = false ↔ Literal m c := by
  intro m
  cases m <;> decide +kernel

theorem ishex_iff : ∀ c : Byte, ishex c = true ↔ (hexVal c).isSome = true := by decide +kernel

theorem unhex_eq : ∀ c : Byte, ishex c = true → hexVal c = some (unhex c).toNat ∧ (unhex c).toNat < 16 := by
  decide +kernel

theorem hex_join : ∀ x y : BitVec 4,
    ((x.setWidth 8 <<< 4) ||| y.setWidth 8 : Byte) = BitVec.ofNat 8 (16 * x.toNat + y.toNat) := by
  decide +kernel

theorem join_eq (x y : Byte) (hx : x.toNat < 16) (hy : y.toNat < 16) :
    (x <<< 4) ||| y = BitVec.ofNat 8 (16 * x.toNat + y.toNat) := by
  have e : ∀ z : Byte, z.toNat < 16 → (z.setWidth 4).setWidth 8 = z ∧ (z.setWidth 4).toNat = z.toNat := by
    decide +kernel
  have := hex_join (x.setWidth 4) (y.setWidth 4)
  rwa [(e x hx).1, (e y hy).1, (e x hx).2, (e y hy).2] at this

theorem upperhex_mem : ∀ c : Byte, upperhex (c >>> 4) ∈ bs "0123456789ABCDEF" ∧
    upperhex (c &&& 15) ∈ bs "0123456789ABCDEF" := by decide +kernel

theorem upperhex_val : ∀ c : Byte, hexVal (upperhex (c >>> 4)) = some (c.toNat / 16) ∧
    hexVal (upperhex (c &&& 15)) = some (c.toNat % 16) := by decide +kernel

theorem space_escaped (m : Mode) : shouldEscape (ch ' ') m = true := by cases m <;> decide
theorem pct_escaped (m : Mode) : shouldEscape (ch '%') m = true := by cases m <;> decide
theorem plus_query : shouldEscape (ch '+') .queryComponent = true := by decide

/-! ## the encoder -/

theorem countEsc_cons (m : Mode) (c : Byte) (s : Bytes) :
    countEsc m (c :: s) = if shouldEscape c m then
      if c = ch ' ' ∧ m = .queryComponent then ((countEsc m s).1 + 1, (countEsc m s).2)
      else ((countEsc m s).1, (countEsc m s).2 + 1)
    else countEsc m s := by
  rw [countEsc]

theorem flatMap_length (m : Mode) (s : Bytes) :
    (s.flatMap (escByte m)).length = s.length + 2 * (countEsc m s).2 := by
  induction s with
  | nil => rfl
  | cons c s ih =>
    rw [List.flatMap_cons, List.length_append, ih, countEsc_cons, List.length_cons]
    by_cases h1 : c = ch ' ' ∧ m = .queryComponent
    · have h2 : shouldEscape c m = true := by rw [h1.1]; exact space_escaped m
      simp [escByte, h1, space_escaped]; omega
    · by_cases h2 : shouldEscape c m = true
      · simp only [escByte, h1, h2, if_true, if_false]; simp; omega
      · simp only [escByte, h1, h2, if_false]; simp; omega

theorem flatMap_of_no_hex (m : Mode) (s : Bytes) (h : (countEsc m s).2 = 0) :
    s.flatMap (escByte m) = s.map fun c => if c = ch ' ' then ch '+' else c := by
  induction s with
  | nil => rfl
  | cons c s ih =>
    rw [countEsc_cons] at h
    by_cases h1 : c = ch ' ' ∧ m = .queryComponent
    · have h2 : shouldEscape c m = true := by rw [h1.1]; exact space_escaped m
      rw [if_pos h2, if_pos h1] at h
      simp only [List.flatMap_cons, List.map_cons, ih h, escByte, if_pos h1, if_pos h1.1]
      rfl
    · by_cases h2 : shouldEscape c m = true
      · rw [if_pos h2, if_neg h1] at h; simp at h
      · rw [if_neg h2] at h
        have h3 : c ≠ ch ' ' := by intro e; rw [e] at h2; exact h2 (space_escaped m)
        simp only [List.flatMap_cons, List.map_cons, ih h, escByte, if_neg h1, if_neg h2, if_neg h3]
        rfl

theorem flatMap_of_none (m : Mode) (s : Bytes) (h1 : (countEsc m s).1 = 0) (h : (countEsc m s).2 = 0) :
    s.flatMap (escByte m) = s := by
  induction s with
  | nil => rfl
  | cons c s ih =>
    rw [countEsc_cons] at h h1
    by_cases h2 : shouldEscape c m = true
    · rw [if_pos h2] at h h1
      split at h <;> simp_all
    · rw [if_neg h2] at h h1
      have h3 : c ≠ ch ' ' := by intro e; rw [e] at h2; exact h2 (space_escaped m)
      have h4 : ¬ (c = ch ' ' ∧ m = .queryComponent) := fun h => h3 h.1
      simp only [List.flatMap_cons, ih h1 h, escByte, if_neg h4, if_neg h2]
      rfl

/-- The encoder never panics and encodes byte by byte. -/
theorem escape_eq (s : Bytes) (m : Mode) : escape s m = some (s.flatMap (escByte m)) := by
  unfold escape
  have hl := flatMap_length m s
  split
  rename_i sp hx heq
  have e1 : (countEsc m s).1 = sp := by rw [heq]
  have e2 : (countEsc m s).2 = hx := by rw [heq]
  split
  · rename_i h
    rw [flatMap_of_none m s (by rw [e1]; exact h.1) (by rw [e2]; exact h.2)]
  · simp only
    split
    · rename_i h
      rw [flatMap_of_no_hex m s (by rw [e2]; exact h)]
    · rw [e2] at hl
      simp [fillBuf, hl]

/-! ## the decoder -/

theorem hexVal_some (a : Byte) (x : Nat) (h : hexVal a = some x) :
    ishex a = true ∧ (unhex a).toNat = x := by
  have h1 : ishex a = true := by rw [ishex_iff, h]; rfl
  have h2 := (unhex_eq a h1).1
  rw [h] at h2
  exact ⟨h1, (Option.some.inj h2).symm⟩

/-- the check of one escape in Go terms is the specification's -/
theorem escAllowed_iff (m : Mode) (a b : Byte) (ha : ishex a = true) (hb : ishex b = true) :
    EscapeAllowed m a b (16 * (unhex a).toNat + (unhex b).toNat) ↔
      ¬ (m = .host ∧ unhex a < 8 ∧ ¬ (a = ch '2' ∧ b = ch '5')) ∧
      ¬ (m = .zone ∧ ¬ (a = ch '2' ∧ b = ch '5') ∧ ((unhex a <<< 4) ||| unhex b) ≠ ch ' ' ∧
        shouldEscape ((unhex a <<< 4) ||| unhex b) .host = true) := by
  have h1 := (unhex_eq a ha).2
  have h2 := (unhex_eq b hb).2
  have hj := join_eq (unhex a) (unhex b) h1 h2
  have hlit := shouldEscape_iff .host (BitVec.ofNat 8 (16 * (unhex a).toNat + (unhex b).toNat))
  have hlt : unhex a < 8 ↔ ¬ 128 ≤ 16 * (unhex a).toNat + (unhex b).toNat := by
    rw [BitVec.lt_def]
    change (unhex a).toNat < 8 ↔ _
    omega
  have hsp : ((unhex a <<< 4) ||| unhex b) = ch ' ' ↔ 16 * (unhex a).toNat + (unhex b).toNat = 32 := by
    rw [hj]
    constructor
    · intro h
      have := congrArg BitVec.toNat h
      rw [BitVec.toNat_ofNat] at this
      change _ = 32 at this
      omega
    · intro h; rw [h]; rfl
  rw [EscapeAllowed]
  rw [ne_eq, hsp, hlt, hj]
  generalize hP : (a = ch '2' ∧ b = ch '5') = P
  cases hse : shouldEscape (BitVec.ofNat 8 (16 * (unhex a).toNat + (unhex b).toNat)) .host
  · rw [hse] at hlit
    have hL := hlit.mp rfl
    simp only [hL]
    by_cases hm : m = .host
    · subst hm; by_cases P <;> simp_all
    · simp [hm]
  · rw [hse] at hlit
    have hL : ¬ Literal .host (BitVec.ofNat 8 (16 * (unhex a).toNat + (unhex b).toNat)) := fun h =>
      absurd (hlit.mpr h) (by simp)
    simp only [hL]
    by_cases hm : m = .host
    · subst hm; by_cases P <;> simp_all
    · by_cases hz : m = .zone
      · subst hz; by_cases P <;> simp_all
      · simp [hm, hz]

theorem rawAllowed_iff (m : Mode) (c : Byte) :
    RawAllowed m c ↔ ¬ ((m = .host ∨ m = .zone) ∧ c < 0x80 ∧ shouldEscape c m = true) := by
  have hl := shouldEscape_iff m c
  have hlt : c < 0x80 ↔ ¬ 128 ≤ c.toNat := by
    rw [BitVec.lt_def]; change c.toNat < 128 ↔ _; omega
  unfold RawAllowed
  rw [hlt, ← hl]
  cases shouldEscape c m <;> simp <;> omega

/-- what the decoding loop does on a well-formed string -/
theorem unescapeLoop_decodes (m : Mode) (s t : Bytes) (h : Decodes m s t) :
    unescapeLoop m s = some t := by
  induction h with
  | nil => rfl
  | esc a b x y s t ha hb _ _ ih =>
    obtain ⟨ha1, ha2⟩ := hexVal_some a x ha
    obtain ⟨hb1, hb2⟩ := hexVal_some b y hb
    rw [unescapeLoop]
    simp only [if_true, ih, Option.map_some]
    rw [join_eq _ _ (unhex_eq a ha1).2 (unhex_eq b hb1).2, ha2, hb2]
  | plus s t hm _ ih =>
    rw [unescapeLoop.eq_def]
    simp only
    rw [if_neg (by decide), if_pos trivial, ih, if_pos hm]; rfl
  | raw c s t hc hp _ _ ih =>
    rw [unescapeLoop.eq_def]
    simp only
    rw [if_neg hc]
    by_cases hplus : c = ch '+'
    · have hm : ¬ m = .queryComponent := fun h => hp ⟨hplus, h⟩
      rw [if_pos hplus, ih, if_neg hm, hplus]; rfl
    · rw [if_neg hplus, ih]; rfl

/-- The checking loop accepts exactly the well-formed strings; the counters tell whether decoding
changes anything. -/
theorem unescapeCheck_ok (m : Mode) (s : Bytes) : ∀ (n : Nat) (p : Bool) (n' : Nat) (p' : Bool),
    unescapeCheck m s n p = .ok (n', p') →
      (∃ t, Decodes m s t) ∧ n ≤ n' ∧
      (n' = n → p' = false → ∀ t, Decodes m s t → t = s) ∧
      (p = true → m = .queryComponent → p' = true) := by
  induction s using unescapeLoop.induct with
  | case1 =>
    intro n p n' p' h
    simp only [unescapeCheck, Except.ok.injEq, Prod.mk.injEq] at h
    refine ⟨⟨[], .nil⟩, by omega, ?_, ?_⟩
    · intro _ _ t ht; cases ht; rfl
    · intro h1 _; rw [← h.2]; exact h1
  | case2 a b rest ih =>
    intro n p n' p' h
    rw [unescapeCheck, if_pos rfl] at h
    simp only at h
    by_cases hx : ishex a = true ∧ ishex b = true
    · have hex : (!ishex a || !ishex b) = false := by simp [hx.1, hx.2]
      rw [if_neg (by simp [hx.1, hx.2])] at h
      by_cases h1 : m = .host ∧ unhex a < 8 ∧ ¬ (a = ch '2' ∧ b = ch '5')
      · rw [if_pos h1] at h; cases h
      · rw [if_neg h1] at h
        by_cases h2 : m = .zone ∧ ¬ (a = ch '2' ∧ b = ch '5') ∧ ((unhex a <<< 4) ||| unhex b) ≠ ch ' ' ∧
            shouldEscape ((unhex a <<< 4) ||| unhex b) .host = true
        · rw [if_pos h2] at h; cases h
        · rw [if_neg h2] at h
          obtain ⟨⟨t, ht⟩, hn, _, hp⟩ := ih _ _ _ _ h
          have hal := (escAllowed_iff m a b hx.1 hx.2).mpr ⟨h1, h2⟩
          refine ⟨⟨_, .esc a b _ _ rest t (unhex_eq a hx.1).1 (unhex_eq b hx.2).1 hal ht⟩, by omega, ?_, hp⟩
          intro h3; omega
    · have hex : (!ishex a || !ishex b) = true := by
        cases h1 : ishex a <;> cases h2 : ishex b <;> simp_all
      rw [if_pos hex] at h; cases h
  | case3 s hne =>
    intro n p n' p' h
    rw [unescapeCheck.eq_def] at h
    simp only [if_true] at h
    cases h
  | case4 s hc ih =>
    intro n p n' p' h
    rw [unescapeCheck.eq_def] at h
    simp only at h
    rw [if_neg hc, if_pos trivial] at h
    obtain ⟨⟨t, ht⟩, hn, hid, hp⟩ := ih _ _ _ _ h
    by_cases hm : m = .queryComponent
    · refine ⟨⟨_, .plus s t hm ht⟩, hn, ?_, ?_⟩
      · intro _ h2
        have := hp (by simp [hm]) hm
        rw [this] at h2; cases h2
      · intro _ _; exact hp (by simp [hm]) hm
    · have hraw : RawAllowed m (ch '+') := by
        rw [rawAllowed_iff]
        rintro ⟨h1, _, h3⟩
        rcases h1 with h1 | h1 <;> subst h1 <;> revert h3 <;> decide
      refine ⟨⟨_, .raw _ s t hc (fun h => hm h.2) hraw ht⟩, hn, ?_, ?_⟩
      · intro h1 h2 u hu
        cases hu with
        | plus _ _ hm' _ => exact absurd hm' hm
        | raw _ _ t' _ _ _ ht' => rw [hid h1 h2 t' ht']
      · intro _ h; exact absurd h hm
  | case5 c s hc hp ih =>
    intro n p n' p' h
    rw [unescapeCheck.eq_def] at h
    simp only at h
    rw [if_neg hc, if_neg hp] at h
    by_cases h1 : (m = .host ∨ m = .zone) ∧ c < 0x80 ∧ shouldEscape c m = true
    · rw [if_pos h1] at h; cases h
    · rw [if_neg h1] at h
      obtain ⟨⟨t, ht⟩, hn, hid, hq⟩ := ih _ _ _ _ h
      refine ⟨⟨_, .raw c s t hc (fun h => hp h.1) ((rawAllowed_iff m c).mpr h1) ht⟩, hn, ?_, hq⟩
      intro h2 h3 u hu
      cases hu with
      | esc => exact absurd rfl hc
      | plus => exact absurd rfl hp
      | raw _ _ t' _ _ _ ht' => rw [hid h2 h3 t' ht']

theorem unescapeCheck_complete (m : Mode) (s t : Bytes) (h : Decodes m s t) :
    ∀ n p, ∃ r, unescapeCheck m s n p = .ok r := by
  induction h with
  | nil => intro n p; exact ⟨_, rfl⟩
  | esc a b x y s t ha hb hal _ ih =>
    intro n p
    obtain ⟨ha1, ha2⟩ := hexVal_some a x ha
    obtain ⟨hb1, hb2⟩ := hexVal_some b y hb
    rw [← ha2, ← hb2, escAllowed_iff m a b ha1 hb1] at hal
    rw [unescapeCheck, if_pos rfl]
    simp only
    rw [if_neg (by simp [ha1, hb1]), if_neg hal.1, if_neg hal.2]
    exact ih _ _
  | plus s t hm _ ih =>
    intro n p
    rw [unescapeCheck.eq_def]
    simp only
    rw [if_neg (by decide), if_pos trivial]
    exact ih _ _
  | raw c s t hc hp hr _ ih =>
    intro n p
    rw [unescapeCheck.eq_def]
    simp only
    rw [if_neg hc]
    by_cases hplus : c = ch '+'
    · rw [if_pos hplus]; exact ih _ _
    · rw [if_neg hplus, if_neg ((rawAllowed_iff m c).mp hr)]; exact ih _ _

theorem unescapeCheck_count (m : Mode) (k : Nat) : ∀ (s : Bytes) (n : Nat) (p : Bool) (n' : Nat) (p' : Bool), s.length ≤ k →
    unescapeCheck m s n p = .ok (n', p') → 2 * n' ≤ 2 * n + s.length := by
  induction k with
  | zero =>
    intro s n p n' p' hk h
    match s, hk with
    | [], _ =>
      rw [unescapeCheck] at h
      injection h with h
      injection h with h _
      subst h
      simp
  | succ k ih =>
    intro s n p n' p' hk h
    match s with
    | [] =>
      rw [unescapeCheck] at h
      injection h with h
      injection h with h _
      subst h
      simp
    | c :: s =>
      simp only [List.length_cons] at hk
      rw [unescapeCheck.eq_def] at h
      simp only at h
      split at h
      · match s, hk, h with
        | [], _, h => simp at h
        | [_], _, h => simp at h
        | a :: b :: rest, hk, h =>
          simp only [List.length_cons] at hk
          simp only at h
          split at h
          · cases h
          · split at h
            · cases h
            · split at h
              · cases h
              · have := ih _ _ _ _ _ (by omega) h
                simp only [List.length_cons]; omega
      · split at h
        · have := ih _ _ _ _ _ (by omega) h
          simp only [List.length_cons]; omega
        · split at h
          · cases h
          · have := ih _ _ _ _ _ (by omega) h
            simp only [List.length_cons]; omega

/-! ## the properties -/

/-- **C12**: decoding never panics; it succeeds exactly on well-formed input, with the string the input
stands for. -/
theorem C12_unescape_exact (s : Bytes) (m : Mode) :
    (∃ r, unescape s m = some r) ∧
    ∀ t, unescape s m = some (.ok t) ↔ Decodes m s t := by
  cases hc : unescapeCheck m s 0 false with
  | error e =>
    refine ⟨⟨_, by rw [unescape, hc]⟩, ?_⟩
    intro t
    constructor
    · intro h; rw [unescape, hc] at h; cases h
    · intro h
      obtain ⟨r, hr⟩ := unescapeCheck_complete m s t h 0 false
      rw [hc] at hr; cases hr
  | ok r =>
    obtain ⟨n', p'⟩ := r
    obtain ⟨⟨t, ht⟩, hn, hid, _⟩ := unescapeCheck_ok m s 0 false n' p' hc
    have hu : unescape s m = some (.ok t) := by
      rw [unescape, hc]
      simp only
      by_cases h0 : n' = 0 ∧ (!p') = true
      · rw [if_pos h0, hid h0.1 (by simpa using h0.2) t ht]
      · have hg := unescapeCheck_count m s.length s 0 false n' p' (Nat.le_refl _) hc
        rw [if_neg h0, if_neg (by omega), unescapeLoop_decodes m s t ht]; rfl
    refine ⟨⟨_, hu⟩, ?_⟩
    intro t'
    rw [hu]
    constructor
    · intro h; cases h; exact ht
    · intro h
      have h1 := unescapeLoop_decodes m s t ht
      rw [unescapeLoop_decodes m s t' h] at h1
      rw [Option.some.inj h1]

example : unescape (bs "a%20b+c") .queryComponent = some (.ok (bs "a b c")) ∧
    unescape (bs "a%2") .path = some (.error .invalidURLEscape) ∧
    unescape (bs "a%2zb") .path = some (.error .invalidURLEscape) ∧
    unescape (bs "a b") .host = some (.error .invalidHostEscape) := by decide +kernel

/-- Number of `%` signs. -/
def pctCount (s : Bytes) : Nat := s.count (ch '%')

/-- **C12**: on success two bytes disappear per escape and none otherwise: the decoded text is at most as
long as the input, and shorter by an even number. -/
theorem C12_length (s t : Bytes) (m : Mode) (h : unescape s m = some (.ok t)) :
    ∃ k, s.length = t.length + 2 * k ∧ k ≤ pctCount s := by
  rw [(C12_unescape_exact s m).2] at h
  induction h with
  | nil => exact ⟨0, rfl, by simp⟩
  | esc a b x y s t _ _ _ _ ih =>
    obtain ⟨k, h1, h2⟩ := ih
    refine ⟨k + 1, by simp; omega, ?_⟩
    simp only [pctCount, List.count_cons] at h2 ⊢
    simp; omega
  | plus s t _ _ ih =>
    obtain ⟨k, h1, h2⟩ := ih
    refine ⟨k, by simp; omega, ?_⟩
    simp only [pctCount, List.count_cons] at h2 ⊢; omega
  | raw c s t _ _ _ _ ih =>
    obtain ⟨k, h1, h2⟩ := ih
    refine ⟨k, by simp; omega, ?_⟩
    simp only [pctCount, List.count_cons] at h2 ⊢; omega

example := C12_length (bs "a%20b+c") (bs "a b c") .queryComponent (by decide +kernel)

/-- **C11**: encoded output consists of literal bytes of the component kind, `%XY` triples and (queries
only) '+'. -/
theorem C11_encoded (s : Bytes) (m : Mode) : ∃ t, escape s m = some t ∧ Encoded m t := by
  refine ⟨_, escape_eq s m, ?_⟩
  induction s with
  | nil => exact .nil
  | cons c s ih =>
    rw [List.flatMap_cons, escByte]
    split
    · rename_i h; exact .plus _ h.2 ih
    · split
      · exact .esc _ _ _ (upperhex_mem c).1 (upperhex_mem c).2 ih
      · rename_i h
        exact .lit c _ ((shouldEscape_iff m c).mp (by simpa using h)) ih

theorem encoded_bytes (m : Mode) (t : Bytes) (h : Encoded m t) :
    ∀ c ∈ t, Literal m c ∨ c = ch '%' ∨ (c = ch '+' ∧ m = .queryComponent) := by
  have hu : ∀ c : Byte, c ∈ bs "0123456789ABCDEF" → Alnum c := by decide +kernel
  induction h with
  | nil => simp
  | lit c s hl _ ih =>
    intro x hx
    rcases List.mem_cons.mp hx with h | h
    · subst h; exact Or.inl hl
    · exact ih x h
  | esc a b s ha hb _ ih =>
    intro x hx
    simp only [List.mem_cons] at hx
    rcases hx with h | h | h | h
    · exact Or.inr (Or.inl h)
    · subst h; exact Or.inl (Or.inl (hu _ ha))
    · subst h; exact Or.inl (Or.inl (hu _ hb))
    · exact ih x h
  | plus s hm _ ih =>
    intro x hx
    rcases List.mem_cons.mp hx with h | h
    · exact Or.inr (Or.inr ⟨h, hm⟩)
    · exact ih x h

/-- **C11**: an escaped query component cannot contain the delimiters of a query, and an escaped path
segment, path, or user name cannot contain those of a URI. -/
theorem C11_no_delimiters (s t : Bytes) :
    (escape s .queryComponent = some t → ∀ c ∈ t, c ∉ bs "&=#;?/: @\"<>[]'") ∧
    (escape s .pathSegment = some t → ∀ c ∈ t, c ∉ bs "/?#; \"<>") ∧
    (escape s .path = some t → ∀ c ∈ t, c ∉ bs "?# \"<>") ∧
    (escape s .userPassword = some t → ∀ c ∈ t, c ∉ bs "@/?:# ") := by
  have key : ∀ (m : Mode) (bad : Bytes), (∀ c : Byte, (Literal m c ∨ c = ch '%' ∨
      (c = ch '+' ∧ m = .queryComponent)) → c ∉ bad) → escape s m = some t → ∀ c ∈ t, c ∉ bad := by
    intro m bad hb he c hc
    obtain ⟨t', h1, h2⟩ := C11_encoded s m
    rw [h1] at he
    cases he
    exact hb c (encoded_bytes m _ h2 c hc)
  refine ⟨key _ _ ?_, key _ _ ?_, key _ _ ?_, key _ _ ?_⟩ <;> decide +kernel

example : escape (bs "a b&c/d") .queryComponent = some (bs "a+b%26c%2Fd") ∧
    escape (bs "a b&c/d") .pathSegment = some (bs "a%20b&c%2Fd") := by decide +kernel

/-- The bytes that survive a round trip through a component of kind `m`. -/
def RoundTrips (m : Mode) (c : Byte) : Prop :=
  match m with
  | .host => 128 ≤ c.toNat ∨ c = ch '%' ∨ Literal .host c
  | .zone => c = ch ' ' ∨ c = ch '%' ∨ Literal .host c
  | _ => True

theorem escByte_decodes (m : Mode) (c : Byte) (h : RoundTrips m c) (s t : Bytes) (hs : Decodes m s t) :
    Decodes m (escByte m c ++ s) (c :: t) := by
  unfold escByte
  split
  · rename_i h1
    rw [h1.1]
    exact .plus s t h1.2 hs
  · rename_i h1
    split
    · rename_i h2
      have hv := upperhex_val c
      have hsum : 16 * (c.toNat / 16) + c.toNat % 16 = c.toNat := Nat.div_add_mod _ _
      have := Decodes.esc (m := m) (upperhex (c >>> 4)) (upperhex (c &&& 15)) _ _ s t hv.1 hv.2 ?_ hs
      · rw [hsum] at this
        simpa using this
      · rw [hsum]
        have hpct : c = ch '%' → upperhex (c >>> 4) = ch '2' ∧ upperhex (c &&& 15) = ch '5' := by
          intro e; rw [e]; decide
        constructor
        · intro hm
          subst hm
          rcases h with h | h | h
          · exact Or.inl h
          · exact Or.inr (hpct h)
          · rw [← shouldEscape_iff] at h; rw [h] at h2; cases h2
        · intro hm
          subst hm
          rcases h with h | h | h
          · right; left; rw [h]; rfl
          · exact Or.inl (hpct h)
          · right; right; simpa using h
    · rename_i h2
      have hl := (shouldEscape_iff m c).mp (by simpa using h2)
      refine .raw c s t ?_ ?_ ?_ hs
      · intro e; rw [e] at h2; exact h2 (pct_escaped m)
      · rintro ⟨e, e2⟩; rw [e, e2] at h2; exact h2 plus_query
      · intro _; exact Or.inr hl

/-- **C10**: decoding the encoded string gives the string back, for every string in the modes other than
those of hosts and zones. -/
theorem C10_roundtrip (s : Bytes) (m : Mode) (hm : m ≠ .host ∧ m ≠ .zone) :
    ∃ t, escape s m = some t ∧ unescape t m = some (.ok s) := by
  refine ⟨_, escape_eq s m, ?_⟩
  rw [(C12_unescape_exact _ m).2]
  induction s with
  | nil => exact .nil
  | cons c s ih =>
    rw [List.flatMap_cons]
    refine escByte_decodes m c ?_ _ _ ih
    cases m <;> simp_all [RoundTrips]

example := C10_roundtrip (bs "a b&c/d%") .pathSegment (by decide)

/-- **C251** for host names and zone identifiers: the round trip holds for strings of bytes that the
component admits.
Missing: names with a byte that needs a percent sign (refuted: `C251_host_exact_violated`,
`C251_host_violated`). -/
theorem C251_roundtrip_partial (s : Bytes) (m : Mode) (h : ∀ c ∈ s, RoundTrips m c) :
    ∃ t, escape s m = some t ∧ unescape t m = some (.ok s) := by
  refine ⟨_, escape_eq s m, ?_⟩
  rw [(C12_unescape_exact _ m).2]
  induction s with
  | nil => exact .nil
  | cons c s ih =>
    rw [List.flatMap_cons]
    exact escByte_decodes m c (h c (by simp)) _ _ (ih fun x hx => h x (by simp [hx]))

example := C251_roundtrip_partial (bs "a b&c/d%") .fragment (fun _ _ => trivial)

/-- **C251** does not extend to every string in host mode: the encoder writes escapes the decoder refuses. -/
theorem C251_host_violated :
    (∃ t, escape (bs "a b") .host = some t ∧ unescape t .host = some (.error .invalidURLEscape)) ∧
    (∃ t, escape [0x80] .zone = some t ∧ unescape t .zone = some (.error .invalidURLEscape)) := by
  refine ⟨⟨bs "a%20b", ?_, ?_⟩, ⟨bs "%80", ?_, ?_⟩⟩ <;> decide +kernel

/-- **C10** consequence: two different strings never have the same encoding. -/
theorem C10_injective (s s' : Bytes) (m : Mode) (hm : m ≠ .host ∧ m ≠ .zone)
    (h : escape s m = escape s' m) : s = s' := by
  obtain ⟨t, h1, h2⟩ := C10_roundtrip s m hm
  obtain ⟨t', h1', h2'⟩ := C10_roundtrip s' m hm
  rw [h1, h1'] at h
  cases h
  rw [h2] at h2'
  exact Except.ok.inj (Option.some.inj h2')

example : escape (bs "a b") .queryComponent = escape (bs "a b") .queryComponent ∧ escape (bs "a b") .queryComponent ≠ escape (bs "a+b") .queryComponent :=
  ⟨rfl, fun h => absurd (C10_injective _ _ _ (by decide) h) (by decide)⟩

/-- **C10** in terms of the number that is passed as the mode: every `int` but 3 and 4 (hosts and zones), named or not. -/
theorem C10_any_number (s : Bytes) (i : Int) (hi : i ≠ 3 ∧ i ≠ 4) :
    ∃ t, escape s (Mode.ofInt i) = some t ∧ unescape t (Mode.ofInt i) = some (.ok s) := by
  refine C10_roundtrip s _ ?_
  unfold Mode.ofInt
  simp only [if_neg hi.1, if_neg hi.2]
  repeat' split
  all_goals decide

example : Mode.ofInt 0 = .other ∧ escape (bs "a b&/") (Mode.ofInt 0) = some (bs "a%20b%26%2F") ∧
    unescape (bs "a%20b%26%2F") (Mode.ofInt 0) = some (.ok (bs "a b&/")) := by decide +kernel

/-- **C11** for numbers that name no mode, such as the zero of an unset variable: the outcome has letters, digits, `-_.~` and escapes only, so that it is safe at every place
of a URI, but a plus sign in such text is not read as a space. -/
theorem C11_unnamed (s : Bytes) (i : Int) (hi : i < 1 ∨ 7 < i) :
    ∃ t, escape s (Mode.ofInt i) = some t ∧ (∀ c ∈ t, Alnum c ∨ c ∈ bs "-_.~%") ∧ unescape (bs "+") (Mode.ofInt i) = some (.ok (bs "+")) := by
  have e : Mode.ofInt i = .other := by
    unfold Mode.ofInt
    repeat' split
    all_goals first | rfl | omega
  rw [e]
  obtain ⟨t, h1, h2⟩ := C11_encoded s .other
  refine ⟨t, h1, ?_, by decide +kernel⟩
  clear h1
  have hex : ∀ x ∈ bs "0123456789ABCDEF", Alnum x := by decide +kernel
  have lit : ∀ x ∈ bs (literalMarks .other), x ∈ bs "-_.~%" := by decide +kernel
  induction h2 with
  | nil => intro c hc; cases hc
  | lit c s hl _ ih =>
    intro x hx
    rcases List.mem_cons.mp hx with rfl | hx
    · rcases hl with hl | hl
      · exact Or.inl hl
      · exact Or.inr (lit _ hl)
    · exact ih x hx
  | esc a b s ha hb _ ih =>
    intro x hx
    rcases List.mem_cons.mp hx with rfl | hx
    · exact Or.inr (by decide +kernel)
    · rcases List.mem_cons.mp hx with rfl | hx
      · exact Or.inl (hex _ ha)
      · rcases List.mem_cons.mp hx with rfl | hx
        · exact Or.inl (hex _ hb)
        · exact ih x hx
  | plus s hq _ _ => cases hq

example : (escape (bs "q=1+2;[x]") (Mode.ofInt (-5))) = some (bs "q%3D1%2B2%3B%5Bx%5D") := by decide +kernel

/-- Specification: besides letters and digits, the bytes that may stand for themselves, by the number of the mode. -/
def Spec.marksAt (i : Int) : String :=
  if i = 1 then "-_.~$&+,/:;=@" else if i = 2 then "-_.~$&+:=@" else if i = 3 ∨ i = 4 then "-_.~!$&'()*+,;=:[]<>\""
  else if i = 5 then "-_.~$&+,;=" else if i = 7 then "-_.~$&+,/:;=?@!()*" else "-_.~"

/-- **C11** by the number of the mode: a byte is left as it is exactly when it is a letter, a digit or one of the marks of that mode. -/
theorem C11_by_number (i : Int) (c : Byte) : escape [c] (Mode.ofInt i) = some [c] ↔ Alnum c ∨ c ∈ bs (Spec.marksAt i) := by
  have key : ∀ m : Mode, escape [c] m = some [c] ↔ Alnum c ∨ c ∈ bs (literalMarks m) := by
    intro m
    rw [escape_eq]
    simp only [List.flatMap_cons, List.flatMap_nil, List.append_nil, Option.some.injEq]
    unfold escByte
    split
    · rename_i h
      obtain ⟨rfl, rfl⟩ := h
      decide +kernel
    · have := shouldEscape_iff m c
      unfold Literal at this
      split
      · rename_i h
        rw [h] at this
        simp at this ⊢
        exact this
      · rename_i h
        simp only [true_iff]
        exact this.mp (by simpa using h)
  rw [key]
  unfold Mode.ofInt Spec.marksAt
  repeat' split
  all_goals first | exact Iff.rfl | omega

example : escape (bs "/") (Mode.ofInt 1) = some (bs "/") ∧ escape (bs "/") (Mode.ofInt 2) = some (bs "%2F") := by decide +kernel

/-- **C12** by the number of the mode: an escaped space is refused in hosts only, which are mode 3, and an escaped byte beyond ASCII in zones only, which are mode 4. -/
theorem C12_by_number (i : Int) :
    (unescape (bs "%20") (Mode.ofInt i) = some (.error .invalidURLEscape) ↔ i = 3) ∧
    (unescape (bs "%80") (Mode.ofInt i) = some (.error .invalidURLEscape) ↔ i = 4) := by
  have key : ∀ m : Mode, (unescape (bs "%20") m = some (.error .invalidURLEscape) ↔ m = .host) ∧
      (unescape (bs "%80") m = some (.error .invalidURLEscape) ↔ m = .zone) := by
    intro m; cases m <;> decide +kernel
  rw [(key _).1, (key _).2]
  unfold Mode.ofInt
  constructor
  all_goals
    repeat' split
    all_goals simp <;> omega

example : unescape (bs "%20") (Mode.ofInt 4) = some (.ok (bs " ")) ∧ unescape (bs "%80") (Mode.ofInt 3) = some (.ok [0x80]) := by decide +kernel

end Memar.Uri
