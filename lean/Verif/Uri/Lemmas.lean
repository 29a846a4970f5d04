import Verif.Uri.Spec

/-! # Lemmas for the URI parser -/

namespace Memar.Uri

/-- A byte the loop steps over without changing anything. -/
def Inert (o : Bool) (st : Scan) (c : Byte) : Prop :=
  c ≠ ch ' ' ∧ (c = ch ':' → st.aS ≠ 0) ∧
  (c = ch '/' → st.pS ≠ 0 ∨ (st.aS = 0 ∧ o = true)) ∧
  (c = ch '?' → st.qI ≠ 0) ∧ (c = ch '#' → st.nI ≠ 0)

theorem scan_step_inert {s : Bytes} {o : Bool} {i : Nat} {st : Scan} {c : Byte}
    (hc : s[i]? = some c) (h : Inert o st c) : scan s o i st = scan s o (i + 1) st := by
  obtain ⟨h1, h2, h3, h4, h5⟩ := h
  rw [scan]
  split
  · rename_i e; rw [hc] at e; cases e
  · rename_i c' e
    rw [hc] at e; cases e
    by_cases e1 : c = ch ':'
    · rw [if_pos e1, if_neg (h2 e1)]
    · rw [if_neg e1]
      by_cases e2 : c = ch '/'
      · rw [if_pos e2]
        have : onSlash s o i st = some st := by
          unfold onSlash
          rcases h3 e2 with h | ⟨h, h'⟩
          · rw [if_neg (by simp [h]), if_neg (by simp [h])]
          · rw [if_neg (by simp [h]), if_neg (by simp [h'])]
        rw [this]
      · rw [if_neg e2]
        by_cases e3 : c = ch '?'
        · rw [if_pos e3, onQuestion, if_neg (h4 e3)]
        · rw [if_neg e3]
          by_cases e4 : c = ch '#'
          · rw [if_pos e4, onNumber, if_neg (h5 e4)]
          · rw [if_neg e4, if_neg h1]

theorem scan_inert {s : Bytes} {o : Bool} {st : Scan} (pre mid post : Bytes)
    (hs : s = pre ++ mid ++ post) (h : ∀ c ∈ mid, Inert o st c) :
    scan s o pre.length st = scan s o (pre.length + mid.length) st := by
  induction mid generalizing pre with
  | nil => rfl
  | cons c mid ih =>
    have hc : s[pre.length]? = some c := by rw [hs]; simp
    rw [scan_step_inert hc (h c (by simp))]
    have := ih (pre ++ [c]) (by rw [hs]; simp) fun d hd => h d (by simp [hd])
    simp only [List.length_append, List.length_singleton] at this
    rw [this, List.length_cons]
    congr 1; omega

theorem scan_end {s : Bytes} {o : Bool} {st : Scan} (pre rest : Bytes) (hs : s = pre ++ rest)
    (hr : Ends rest) : scan s o pre.length st = some (st, pre.length) := by
  rw [scan]
  split
  · rfl
  · rename_i c e
    rcases hr with rfl | hr
    · rw [hs] at e; simp at e
    · have : c = ch ' ' := by
        rw [hs, List.getElem?_append_right (Nat.le_refl _), Nat.sub_self,
          ← List.head?_eq_getElem?, hr] at e
        exact (Option.some.inj e).symm
      subst this
      rfl

theorem scan_colon {s : Bytes} {o : Bool} {st : Scan} (pre post : Bytes)
    (hs : s = pre ++ ch ':' :: post) (h : st.aS = 0) :
    scan s o pre.length st =
      scan s o (pre.length + 3)
        { st with aS := pre.length + 3, u := { st.u with scheme := pre } } := by
  have hc : s[pre.length]? = some (ch ':') := by rw [hs]; simp
  conv => lhs; rw [scan]
  split
  · rename_i e; rw [hc] at e; cases e
  · rename_i c e
    rw [hc] at e; cases e
    rw [if_pos rfl, if_pos h]
    have : s.take pre.length = pre := by rw [hs]; simp
    rw [this]

theorem scan_slash {s : Bytes} {o : Bool} {st st' : Scan} {i : Nat}
    (hc : s[i]? = some (ch '/')) (h : onSlash s o i st = some st') :
    scan s o i st = scan s o (i + 1) st' := by
  conv => lhs; rw [scan]
  split
  · rename_i e; rw [hc] at e; cases e
  · rename_i c e
    rw [hc] at e; cases e
    rw [if_neg (by decide), if_pos rfl, h]

theorem scan_question {s : Bytes} {o : Bool} {st st' : Scan} {i : Nat}
    (hc : s[i]? = some (ch '?')) (h : onQuestion s i st = some st') :
    scan s o i st = scan s o (i + 1) st' := by
  conv => lhs; rw [scan]
  split
  · rename_i e; rw [hc] at e; cases e
  · rename_i c e
    rw [hc] at e; cases e
    rw [if_neg (by decide), if_neg (by decide), if_pos rfl, h]

theorem scan_number {s : Bytes} {o : Bool} {st st' : Scan} {i : Nat}
    (hc : s[i]? = some (ch '#')) (h : onNumber s i st = some st') :
    scan s o i st = scan s o (i + 1) st' := by
  conv => lhs; rw [scan]
  split
  · rename_i e; rw [hc] at e; cases e
  · rename_i c e
    rw [hc] at e; cases e
    rw [if_neg (by decide), if_neg (by decide), if_neg (by decide), if_pos rfl, h]

theorem slice_mid {α} (a b c : List α) : slice (a ++ b ++ c) a.length (a.length + b.length) = some b := by
  rw [slice, if_pos (by simp)]
  have : (a ++ b ++ c).take (a.length + b.length) = a ++ b := by
    rw [← List.length_append, List.take_left]
  rw [this]; simp

theorem slice_mid' {α} (s a b c : List α) (i j : Nat) (hs : s = a ++ b ++ c) (hi : i = a.length)
    (hj : j = a.length + b.length) : slice s i j = some b := by
  subst hs hi hj; exact slice_mid a b c

/-- A colon is stepped over, or there is none. -/
def ColonOk (st : Scan) (t : Bytes) : Prop := st.aS ≠ 0 ∨ Avoids t ":"

theorem not_of_avoids {t : Bytes} {cs : String} {c d : Byte} (h : Avoids t cs) (hc : c ∈ t)
    (hd : d ∈ bs cs) : c ≠ d := fun e => h c hc (e ▸ hd)

/-- From the end of the path on: query, fragment, and what the parser makes of them. -/
theorem scan_tail {s : Bytes} {o : Bool} {st : Scan} (pre : Bytes) (t : Tail) (rest : Bytes)
    (hs : s = pre ++ t.text ++ rest) (hpS : st.pS = pre.length) (hq : st.qI = 0) (hn : st.nI = 0)
    (hsl : st.pS ≠ 0 ∨ (st.aS = 0 ∧ o = true)) (hcol : ColonOk st t.text)
    (hw : t.WellFormed) (hpf : t.PlainFragment) (he : Ends rest) :
    ∃ st', scan s o (pre.length + t.path.length) st = some (st', (pre ++ t.text).length) ∧
      finish s st' (pre ++ t.text).length = some { st.u with
        path := t.path, query := t.query.getD st.u.query
        fragment := t.fragment.getD st.u.fragment } := by
  obtain ⟨path, query, fragment⟩ := t
  obtain ⟨w1, w2, w3, w4⟩ := hw
  simp only at w1 w2 w3 w4
  have hplen : path.length ≠ 0 := by cases path <;> simp at w1 ⊢
  have hcolon : ∀ c ∈ withSign (ch '?') query ++ withSign (ch '#') fragment,
      c = ch ':' → st.aS ≠ 0 := by
    intro c hc e
    rcases hcol with h | h
    · exact h
    · exact absurd e (not_of_avoids h
        (by simp only [Tail.text, List.append_assoc]; exact List.mem_append_right _ hc) (by decide))
  -- the fragment, from its sign on
  have frag : ∀ (st1 : Scan) (pre1 : Bytes), s = pre1 ++ withSign (ch '#') fragment ++ rest →
      st1.nI = 0 → (st1.pS ≠ 0 ∨ (st1.aS = 0 ∧ o = true)) → (st.aS ≠ 0 → st1.aS ≠ 0) →
      pre1.length ≠ 0 → (st1.qI = 0 ↔ query = none) →
      (∀ i, pre1.length = i → st1.qI = 0 → slice s st1.pS i = some path) →
      (∀ i q, pre1.length = i → query = some q → slice s (st1.qI + 1) i = some q) →
      ∃ st', scan s o pre1.length st1 = some (st', (pre1 ++ withSign (ch '#') fragment).length) ∧
        finish s st' (pre1 ++ withSign (ch '#') fragment).length =
          some { st1.u with
            path := if query = none then path else st1.u.path
            query := query.getD st1.u.query, fragment := fragment.getD st1.u.fragment } := by
    intro st1 pre1 hs1 hn1 hsl1 ha1 hpos hq1 hpath hquery
    cases fragment with
    | none =>
      simp only [withSign, List.append_nil] at hs1 ⊢
      refine ⟨st1, scan_end pre1 rest hs1 he, ?_⟩
      cases hqq : query with
      | none =>
        have h0 := hq1.mpr hqq
        simp [finish, endPath, endFragment, endQuery, h0, hn1, hpath _ rfl h0]
      | some q =>
        have h0 : st1.qI ≠ 0 := fun e => by rw [hq1.mp e] at hqq; cases hqq
        simp [finish, endPath, endFragment, endQuery, h0, hn1, hquery _ q rfl hqq]
    | some f =>
      simp only [withSign] at hs1 ⊢
      have hc : s[pre1.length]? = some (ch '#') := by rw [hs1]; simp
      have key : ∀ st2 : Scan, st2.aS = st1.aS → st2.pS = st1.pS → st2.qI = st1.qI →
          st2.nI = pre1.length →
          scan s o (pre1.length + 1) st2 = some (st2, (pre1 ++ ch '#' :: f).length) := by
        intro st2 e1 e2 e3 e4
        have := scan_inert (s := s) (o := o) (st := st2) (pre1 ++ [ch '#']) f rest (by rw [hs1]; simp) ?_
        · simp only [List.length_append, List.length_singleton] at this
          rw [this]
          have h2 := scan_end (s := s) (o := o) (st := st2) (pre1 ++ [ch '#'] ++ f) rest (by rw [hs1]; simp) he
          simp only [List.length_append, List.length_cons, List.length_nil] at h2 ⊢
          rw [h2]; congr 2; omega
        · intro c hcf
          refine ⟨not_of_avoids (w4 f rfl) hcf (by decide), fun e => ?_, fun _ => by rw [e1, e2]; exact hsl1,
            fun e => ?_, fun _ => by rw [e4]; exact hpos⟩
          · rw [e1]
            exact ha1 (hcolon c (by
              apply List.mem_append_right; simp [withSign, hcf]) e)
          · rw [e3]; intro e0
            exact not_of_avoids (hpf (hq1.mp e0) f rfl) hcf (by decide) e
      have hfs : slice s (pre1.length + 1) (pre1 ++ ch '#' :: f).length = some f :=
        slice_mid' s (pre1 ++ [ch '#']) f rest _ _ (by rw [hs1]; simp) (by simp) (by simp; omega)
      cases hqq : query with
      | none =>
        have h0 := hq1.mpr hqq
        have hon : onNumber s pre1.length st1 =
            some { st1 with nI := pre1.length, u := { st1.u with path := path } } := by
          rw [onNumber, if_pos hn1, if_pos h0, hpath _ rfl h0]; rfl
        refine ⟨{ st1 with nI := pre1.length, u := { st1.u with path := path } }, ?_, ?_⟩
        · rw [scan_number hc hon]; exact key _ rfl rfl rfl rfl
        · clear key hon hc hpath hquery
          generalize (pre1 ++ ch '#' :: f).length = L at hfs ⊢
          generalize pre1.length = n at hfs hpos ⊢
          simp [finish, endPath, endFragment, endQuery, hfs, h0, hpos]
      | some q =>
        have h0 : st1.qI ≠ 0 := fun e => by rw [hq1.mp e] at hqq; cases hqq
        have hon : onNumber s pre1.length st1 =
            some { st1 with nI := pre1.length, u := { st1.u with query := q } } := by
          rw [onNumber, if_pos hn1, if_neg h0, hquery _ q rfl hqq]; rfl
        refine ⟨{ st1 with nI := pre1.length, u := { st1.u with query := q } }, ?_, ?_⟩
        · rw [scan_number hc hon]; exact key _ rfl rfl rfl rfl
        · clear key hon hc hpath hquery
          generalize (pre1 ++ ch '#' :: f).length = L at hfs ⊢
          generalize pre1.length = n at hfs hpos ⊢
          simp [finish, endPath, endFragment, endQuery, hfs, h0, hpos]
  cases query with
  | none =>
    have hs' : s = pre ++ path ++ withSign (ch '#') fragment ++ rest := by
      rw [hs]; simp [Tail.text, withSign]
    obtain ⟨st', r1, r2⟩ := frag st (pre ++ path) hs' hn hsl id (by rw [List.length_append]; omega) (by simp [hq])
      (by
        rintro i rfl _
        exact slice_mid' s pre path (withSign (ch '#') fragment ++ rest) _ _ (by rw [hs']; simp) hpS
          (by simp))
      (by simp)
    have hlen : (pre ++ (⟨path, none, fragment⟩ : Tail).text).length =
        (pre ++ path ++ withSign (ch '#') fragment).length := by simp [Tail.text, withSign]
    rw [hlen]
    refine ⟨st', ?_, ?_⟩
    · rw [← r1, List.length_append]
    · rw [r2]; simp
  | some q =>
    have hs' : s = (pre ++ path ++ [ch '?'] ++ q) ++ withSign (ch '#') fragment ++ rest := by
      rw [hs]; simp [Tail.text, withSign]
    have hc : s[pre.length + path.length]? = some (ch '?') := by
      have : s = (pre ++ path) ++ (ch '?' :: (q ++ withSign (ch '#') fragment ++ rest)) := by
        rw [hs']; simp
      rw [this, ← List.length_append, List.getElem?_append_right (Nat.le_refl _)]; simp
    have hon : onQuestion s (pre.length + path.length) st =
        some { st with qI := pre.length + path.length, u := { st.u with path := path } } := by
      rw [onQuestion, if_pos hq, slice_mid' s pre path
        ([ch '?'] ++ q ++ withSign (ch '#') fragment ++ rest) _ _ (by rw [hs']; simp) hpS rfl]; rfl
    have hin := scan_inert (s := s) (o := o)
      (st := { st with qI := pre.length + path.length, u := { st.u with path := path } })
      (pre ++ path ++ [ch '?']) q (withSign (ch '#') fragment ++ rest) (by rw [hs']; simp) (by
        intro c hcq
        have hav := w3 q rfl
        refine ⟨not_of_avoids hav hcq (by decide), fun e => hcolon c (by simp [withSign, hcq]) e,
          fun _ => hsl, fun _ => ?_, fun e => absurd e (not_of_avoids hav hcq (by decide))⟩
        show pre.length + path.length ≠ 0
        omega)
    obtain ⟨st', r1, r2⟩ := frag
      { st with qI := pre.length + path.length, u := { st.u with path := path } }
      (pre ++ path ++ [ch '?'] ++ q) hs' hn hsl id (by simp)
      (by
        constructor
        · intro e; simp only at e; omega
        · intro e; cases e)
      (by intro i _ h0; simp only at h0; omega)
      (by
        rintro i q' rfl e
        cases e
        exact slice_mid' s (pre ++ path ++ [ch '?']) q (withSign (ch '#') fragment ++ rest) _ _
          (by rw [hs']; simp) (by simp; omega) (by simp; omega))
    have hlen : (pre ++ (⟨path, some q, fragment⟩ : Tail).text).length =
        (pre ++ path ++ [ch '?'] ++ q ++ withSign (ch '#') fragment).length := by
      simp [Tail.text, withSign]
    rw [hlen]
    refine ⟨st', ?_, ?_⟩
    · rw [scan_question hc hon]
      simp only [List.length_append, List.length_singleton] at hin r1 ⊢
      rw [hin, r1]
    · rw [r2]; simp

end Memar.Uri
