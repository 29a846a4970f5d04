import Verif.Uri.MarshalProps
import Verif.Uri.EscapeProps

/-! # Queries (C101, C102, C103) -/

namespace Memar.Uri
open Spec

/-! ## Specification -/

/-- Settings joined by ampersands. -/
def joinAnd : List Bytes → Bytes
  | [] => []
  | [x] => x
  | x :: y :: r => x ++ ch '&' :: joinAnd (y :: r)

/-- `key=value`, or a key alone, which stands for an empty value. -/
def settingText (key : Bytes) : Option Bytes → Bytes
  | none => key
  | some v => key ++ ch '=' :: v

/-- What a single setting of a query stands for: its part before the first `=` and its part after
it, both decoded. -/
inductive Means : Bytes → Bytes × Bytes → Prop
  | mk (k : Bytes) (v : Option Bytes) (key value : Bytes) :
      Avoids k "=" → Decodes .queryComponent k key → Decodes .queryComponent (v.getD []) value →
      Means (settingText k v) (key, value)

/-- The values that a list of key-value pairs gives to a key, in order. -/
def valuesOf (k : Bytes) (ps : List (Bytes × Bytes)) : List Bytes :=
  ps.filterMap fun p => if p.1 = k then some p.2 else none

/-! ## Lemmas -/

theorem cutByte_settingText (k : Bytes) (v : Option Bytes) (h : Avoids k "=") :
    cutByte (settingText k v) (ch '=') = (k, v.getD []) := by
  have hk : ch '=' ∉ k := fun e => h _ e (by decide)
  cases v with
  | none => exact cutByte_not_found k _ hk
  | some v => exact cutByte_found k v _ hk

theorem settings_nil (m : Values) (err : Option QErr) : settings [] m err = some (m, err) := by
  rw [settings, dif_pos rfl]

theorem settings_step {q : Bytes} (m : Values) (err : Option QErr) (h : q ≠ []) :
    settings q m err = (oneSetting m err (cutByte q (ch '&')).1).bind
      fun r => settings (cutByte q (ch '&')).2 r.1 r.2 := by
  rw [settings, dif_neg h]
  cases oneSetting m err (cutByte q (ch '&')).1 with
  | none => rfl
  | some r => rfl

/-- Reading a query is reading its settings one after the other. -/
theorem settings_join (xs : List Bytes) (m : Values) (err : Option QErr)
    (h : ∀ x ∈ xs, ch '&' ∉ x) :
    settings (joinAnd xs) m err =
      xs.foldl (fun st x => st.bind fun r => oneSetting r.1 r.2 x) (some (m, err)) := by
  induction xs generalizing m err with
  | nil => exact settings_nil m err
  | cons x xs ih =>
    have hx := h x (by simp)
    have hrest : ∀ (st : Option (Values × Option QErr)), st = none →
        xs.foldl (fun st x => st.bind fun r => oneSetting r.1 r.2 x) st = none := by
      intro st hst
      subst hst
      clear h ih
      induction xs with
      | nil => rfl
      | cons y ys ih => exact ih
    have hstep : settings (joinAnd (x :: xs)) m err =
        (oneSetting m err x).bind fun r => settings (joinAnd xs) r.1 r.2 := by
      cases xs with
      | nil =>
        show settings x m err = _
        by_cases hn : x = []
        · rw [hn, settings_nil, oneSetting, if_pos rfl]
          simp only [Option.bind_some, joinAnd, settings_nil]
        · rw [settings_step m err hn, cutByte_not_found x _ hx]
          rfl
      | cons y ys =>
        show settings (x ++ ch '&' :: joinAnd (y :: ys)) m err = _
        rw [settings_step m err (by simp), cutByte_found x _ _ hx]
    rw [hstep, List.foldl_cons]
    cases ho : oneSetting m err x with
    | none =>
      simp only [Option.bind_some, Option.bind_none]
      exact (hrest _ ho).symm
    | some r =>
      obtain ⟨m', err'⟩ := r
      simp only [Option.bind_some]
      rw [ih m' err' (fun y hy => h y (by simp [hy])), ho]

theorem valuesOf_cons (k : Bytes) (p : Bytes × Bytes) (ps : List (Bytes × Bytes)) :
    valuesOf k (p :: ps) = (if p.1 = k then [p.2] else []) ++ valuesOf k ps := by
  unfold valuesOf
  rw [List.filterMap_cons]
  split <;> rename_i h <;> split at h <;> simp_all

theorem valuesOf_append (k : Bytes) (ps qs : List (Bytes × Bytes)) :
    valuesOf k (ps ++ qs) = valuesOf k ps ++ valuesOf k qs := by
  unfold valuesOf; exact List.filterMap_append

theorem oneSetting_good (m : Values) (err : Option QErr) (x : Bytes) (key value : Bytes)
    (hne : x ≠ []) (hc : Avoids x ":") (h : Means x (key, value)) :
    oneSetting m err x = some (m.put key ((m key).getD [] ++ [value]), err) := by
  have hx : indexByte x signSemicolon = none := by
    rw [indexByte_none_iff]; exact fun e => hc _ e (by decide)
  cases h with
  | mk k v key value hk h1 h2 =>
    unfold oneSetting
    rw [if_neg hne, if_neg (by rw [hx]; simp), cutByte_settingText k v hk]
    simp only
    rw [((C12_unescape_exact k .queryComponent).2 key).mpr h1]
    simp only
    rw [((C12_unescape_exact _ .queryComponent).2 value).mpr h2]

theorem put_apply (m : Values) (key k : Bytes) (vs : List Bytes) :
    (m.put key vs k).getD [] = if k = key then vs else (m k).getD [] := by
  unfold Values.put; split <;> rfl

/-! ## C102: a query is read setting by setting -/

/-- C213: reading a query whose settings are all well-formed and contain no colon: every setting adds
its decoded value to its decoded key, in order, after the values that were there; no error.
Missing: colons, semicolons, and which error is returned (refuted:
`C213_semicolon_any_violated`, `C213_colon_refused_violated`, `C213_semicolon_accepted_violated`
and others). -/
theorem C213_all_good_partial (m : Values) (xs : List Bytes) (ps : List (Bytes × Bytes))
    (h : ∀ x ∈ xs, x ≠ [] ∧ Avoids x "&:") (hm : xs.length = ps.length)
    (hp : ∀ (i : Nat) x p, xs[i]? = some x → ps[i]? = some p → Means x p) :
    ∃ m', fromString m (joinAnd xs) = some (m', none) ∧
      (∀ k, (m' k).getD [] = (m k).getD [] ++ valuesOf k ps) ∧
      (∀ k, (m' k).isSome = ((m k).isSome || ps.any (fun p => decide (p.1 = k)))) := by
  have hamp : ∀ x ∈ xs, ch '&' ∉ x := fun x hx e => (h x hx).2 _ e (by decide)
  rw [fromString, settings_join xs m none hamp]
  clear hamp
  induction xs generalizing m ps with
  | nil =>
    cases ps with
    | nil => exact ⟨m, rfl, fun k => by simp [valuesOf], fun k => by simp⟩
    | cons p ps => simp at hm
  | cons x xs ih =>
    cases ps with
    | nil => simp at hm
    | cons p ps =>
      obtain ⟨key, value⟩ := p
      have hx := h x (by simp)
      have hmean : Means x (key, value) := hp 0 x (key, value) rfl rfl
      have hone := oneSetting_good m none x key value hx.1
        (fun c hc e => hx.2 c hc (by
          have : bs ":" = [ch ':'] := by decide
          rw [this, List.mem_singleton] at e; rw [e]; decide)) hmean
      obtain ⟨m', h1, h2, h3⟩ := ih (m.put key ((m key).getD [] ++ [value])) ps
        (fun y hy => h y (by simp [hy])) (by simpa using hm)
        (fun i y q e1 e2 => hp (i + 1) y q e1 e2)
      refine ⟨m', ?_, ?_, ?_⟩
      · rw [List.foldl_cons]
        simp only [Option.bind_some]
        rw [hone, h1]
      · intro k
        rw [h2 k, put_apply, valuesOf_cons]
        by_cases hk : k = key
        · subst hk; simp
        · rw [if_neg hk]; simp [Ne.symm hk]
      · intro k
        rw [h3 k]
        by_cases hk : k = key
        · subst hk; simp [Values.put]
        · simp [Values.put, hk, Ne.symm hk]

example : Means (bs "a+b=%31%3a") (bs "a b", bs "1:") := by
  refine Means.mk (bs "a+b") (some (bs "%31%3a")) _ _ (by decide) ?_ ?_
  · exact ((C12_unescape_exact _ _).2 _).mp (by decide +kernel)
  · exact ((C12_unescape_exact _ _).2 _).mp (by decide +kernel)

example : (fromString (fun _ => none) (bs "a+b=%31%3a&c&a+b=2&&c=")).map
    (fun r => ([r.1 (bs "a b"), r.1 (bs "c"), r.1 (bs "d")], r.2)) =
    some ([some [bs "1:", bs "2"], some [bs "", bs ""], none], none) := by decide +kernel

/-- What one setting does: nothing if it is empty; with a colon it is refused; otherwise it is refused
if it does not decode, and adds one value if it does. -/
inductive Verdict
  | skip
  | colon
  | bad (e : Err)
  | pair (key value : Bytes)
deriving DecidableEq

/-- `JudgedAs x v`: the setting `x` has the verdict `v`. -/
inductive JudgedAs : Bytes → Verdict → Prop
  | skip : JudgedAs [] .skip
  | colon (x) : x ≠ [] → ¬ Avoids x ":" → JudgedAs x .colon
  | bad (x e) : x ≠ [] → Avoids x ":" → (∀ p, ¬ Means x p) → JudgedAs x (.bad e)
  | pair (x k v) : x ≠ [] → Avoids x ":" → Means x (k, v) → JudgedAs x (.pair k v)

/-- The pairs of a list of verdicts. -/
def goodPairs (vs : List Verdict) : List (Bytes × Bytes) :=
  vs.filterMap fun
    | .pair k v => some (k, v)
    | _ => none

/-- The first decoding error of a list of verdicts. -/
def firstBad (vs : List Verdict) : Option Err :=
  vs.findSome? fun
    | .bad e => some e
    | _ => none

/-- The verdict the code comes to. -/
def verdictOf (x : Bytes) : Option Verdict :=
  if x = [] then some .skip
  else if indexByte x signSemicolon ≠ none then some .colon
  else
    match unescape (cutByte x (ch '=')).1 .queryComponent with
    | none => none
    | some (.error e) => some (.bad e)
    | some (.ok key) =>
      match unescape (cutByte x (ch '=')).2 .queryComponent with
      | none => none
      | some (.error e) => some (.bad e)
      | some (.ok value) => some (.pair key value)

theorem settingText_cut (x : Bytes) : ∃ k v, x = settingText k v ∧ Avoids k "=" ∧
    cutByte x (ch '=') = (k, v.getD []) := by
  have heq : bs "=" = [ch '='] := by decide
  cases hi : indexByte x (ch '=') with
  | none =>
    have hk : Avoids x "=" := by
      intro c hc e
      rw [heq, List.mem_singleton] at e
      exact (indexByte_none_iff x (ch '=')).mp hi (e ▸ hc)
    exact ⟨x, none, rfl, hk, cutByte_settingText x none hk⟩
  | some i =>
    obtain ⟨h1, h2, _⟩ := indexByte_some x (ch '=') i hi
    have hk : Avoids (x.take i) "=" := by
      intro c hc e
      rw [heq, List.mem_singleton] at e
      exact h2 (e ▸ hc)
    refine ⟨x.take i, some (x.drop (i + 1)), h1, hk, ?_⟩
    have := cutByte_settingText (x.take i) (some (x.drop (i + 1))) hk
    rw [show settingText (x.take i) (some (x.drop (i + 1))) = x from h1.symm] at this
    exact this

theorem decodes_unique {s t t' : Bytes} (h : Decodes .queryComponent s t)
    (h' : Decodes .queryComponent s t') : t = t' := by
  have h1 := ((C12_unescape_exact s .queryComponent).2 t).mpr h
  rw [((C12_unescape_exact s .queryComponent).2 t').mpr h'] at h1
  exact (Except.ok.inj (Option.some.inj h1)).symm

theorem means_iff {x k : Bytes} {v : Option Bytes} (hx : x = settingText k v) (hk : Avoids k "=")
    (key value : Bytes) : Means x (key, value) ↔
      Decodes .queryComponent k key ∧ Decodes .queryComponent (v.getD []) value := by
  subst hx
  constructor
  · intro h
    generalize hy : settingText k v = y at h
    cases h with
    | mk k' v' _ _ hk' h1 h2 =>
      have e := cutByte_settingText k v hk
      rw [hy, cutByte_settingText k' v' hk'] at e
      rw [Prod.mk.injEq] at e
      rw [← e.1, ← e.2]
      exact ⟨h1, h2⟩
  · intro h; exact Means.mk k v key value hk h.1 h.2

theorem verdictOf_spec (x : Bytes) : ∃ v, verdictOf x = some v ∧ JudgedAs x v := by
  unfold verdictOf
  by_cases h0 : x = []
  · rw [if_pos h0, h0]; exact ⟨_, rfl, .skip⟩
  · rw [if_neg h0]
    have hcol : bs ":" = [ch ':'] := by decide
    by_cases h1 : indexByte x signSemicolon = none
    · have hav : Avoids x ":" := by
        intro c hc e
        rw [hcol, List.mem_singleton] at e
        exact (indexByte_none_iff x signSemicolon).mp h1 (by rw [signSemicolon, ← e]; exact hc)
      rw [if_neg (by rw [h1]; simp)]
      obtain ⟨k, v, hx, hk, hcut⟩ := settingText_cut x
      rw [hcut]
      simp only
      have c1 := C12_unescape_exact k .queryComponent
      have c2 := C12_unescape_exact (v.getD []) .queryComponent
      obtain ⟨r1, hr1⟩ := c1.1
      obtain ⟨r2, hr2⟩ := c2.1
      rw [hr1]
      cases r1 with
      | error e =>
        refine ⟨_, rfl, .bad x e h0 hav ?_⟩
        rintro ⟨a, b⟩ hm
        have := ((means_iff hx hk a b).mp hm).1
        rw [← c1.2, hr1] at this; cases this
      | ok key =>
        simp only
        rw [hr2]
        cases r2 with
        | error e =>
          refine ⟨_, rfl, .bad x e h0 hav ?_⟩
          rintro ⟨a, b⟩ hm
          have := ((means_iff hx hk a b).mp hm).2
          rw [← c2.2, hr2] at this; cases this
        | ok value =>
          exact ⟨_, rfl, .pair x key value h0 hav
            ((means_iff hx hk key value).mpr ⟨(c1.2 key).mp hr1, (c2.2 value).mp hr2⟩)⟩
    · rw [if_pos h1]
      refine ⟨_, rfl, .colon x h0 ?_⟩
      intro hav
      apply h1
      rw [indexByte_none_iff]
      exact fun e => hav _ e (by decide)

/-- The effect of a verdict on the map and the error. -/
def applyVerdict (r : Values × Option QErr) : Verdict → Values × Option QErr
  | .skip => r
  | .colon => (r.1, some .badKey)
  | .bad e => (r.1, r.2.or (some (.unescape e)))
  | .pair k v => (r.1.put k ((r.1 k).getD [] ++ [v]), r.2)

theorem oneSetting_verdict (m : Values) (err : Option QErr) (x : Bytes) :
    oneSetting m err x = (verdictOf x).map (applyVerdict (m, err)) := by
  unfold oneSetting verdictOf
  split
  · rfl
  · split
    · rfl
    · cases unescape (cutByte x (ch '=')).1 .queryComponent with
      | none => rfl
      | some r =>
        cases r with
        | error e => rfl
        | ok key =>
          simp only
          cases unescape (cutByte x (ch '=')).2 .queryComponent with
          | none => rfl
          | some r => cases r <;> rfl

/-- The error that is reported: the bad-key error if any setting contains a colon; otherwise the
first decoding error. -/
def reported (vs : List Verdict) : Option QErr :=
  if Verdict.colon ∈ vs then some .badKey else (firstBad vs).map .unescape

theorem foldl_verdicts (vs : List Verdict) (m : Values) (err : Option QErr) :
    (∀ k, ((vs.foldl applyVerdict (m, err)).1 k).getD [] = (m k).getD [] ++ valuesOf k (goodPairs vs)) ∧
    (vs.foldl applyVerdict (m, err)).2 =
      (if Verdict.colon ∈ vs then some .badKey else err.or ((firstBad vs).map .unescape)) := by
  induction vs generalizing m err with
  | nil => exact ⟨fun k => by simp [goodPairs, valuesOf], by simp [firstBad]⟩
  | cons v vs ih =>
    rw [List.foldl_cons]
    cases v with
    | skip =>
      obtain ⟨h1, h2⟩ := ih m err
      exact ⟨h1, by rw [show applyVerdict (m, err) .skip = (m, err) from rfl, h2]; simp [firstBad]⟩
    | colon =>
      obtain ⟨h1, h2⟩ := ih m (some .badKey)
      refine ⟨h1, ?_⟩
      rw [show applyVerdict (m, err) .colon = (m, some .badKey) from rfl, h2]
      simp
    | bad e =>
      obtain ⟨h1, h2⟩ := ih m (err.or (some (.unescape e)))
      refine ⟨h1, ?_⟩
      rw [show applyVerdict (m, err) (.bad e) = (m, err.or (some (.unescape e))) from rfl, h2]
      have : Verdict.colon ∈ (Verdict.bad e :: vs) ↔ Verdict.colon ∈ vs := by simp
      simp only [this]
      split
      · rfl
      · cases err <;> simp [firstBad]
    | pair k v =>
      obtain ⟨h1, h2⟩ := ih (m.put k ((m k).getD [] ++ [v])) err
      refine ⟨?_, ?_⟩
      · intro k'
        rw [show applyVerdict (m, err) (.pair k v) = (m.put k ((m k).getD [] ++ [v]), err) from rfl, h1,
          put_apply, show goodPairs (.pair k v :: vs) = (k, v) :: goodPairs vs from rfl, valuesOf_cons]
        by_cases hk : k' = k
        · subst hk; simp
        · rw [if_neg hk]; simp [Ne.symm hk]
      · rw [show applyVerdict (m, err) (.pair k v) = (m.put k ((m k).getD [] ++ [v]), err) from rfl, h2]
        simp [firstBad]

/-- C102: reading any query: it never panics; every setting is judged on its own; all settings that
decode add their value to their key, in order, whatever the others are; the reported error is the
bad-key error if any setting contains a colon, otherwise the first decoding error. -/
theorem C102_exact (m : Values) (xs : List Bytes) (h : ∀ x ∈ xs, Avoids x "&") :
    ∃ (vs : List Verdict) (m' : Values),
      vs.length = xs.length ∧ (∀ (i : Nat) x v, xs[i]? = some x → vs[i]? = some v → JudgedAs x v) ∧
      fromString m (joinAnd xs) = some (m', reported vs) ∧
      ∀ k, (m' k).getD [] = (m k).getD [] ++ valuesOf k (goodPairs vs) := by
  have hamp : ∀ x ∈ xs, ch '&' ∉ x := fun x hx e => h x hx _ e (by decide)
  obtain ⟨vs, hv1, hv2, hv3⟩ : ∃ vs : List Verdict, vs.length = xs.length ∧
      (∀ (i : Nat) x v, xs[i]? = some x → vs[i]? = some v → JudgedAs x v) ∧
      ∀ r, xs.foldl (fun st x => st.bind fun r => oneSetting r.1 r.2 x) (some r) =
        some (vs.foldl applyVerdict r) := by
    clear h hamp
    induction xs with
    | nil => exact ⟨[], rfl, fun i x v e => by simp at e, fun r => rfl⟩
    | cons x xs ih =>
      obtain ⟨vs, h1, h2, h3⟩ := ih
      obtain ⟨v, g1, g2⟩ := verdictOf_spec x
      refine ⟨v :: vs, by simp [h1], ?_, ?_⟩
      · intro i y w e1 e2
        cases i with
        | zero =>
          simp only [List.getElem?_cons_zero, Option.some.injEq] at e1 e2
          rw [← e1, ← e2]; exact g2
        | succ i => exact h2 i y w (by simpa using e1) (by simpa using e2)
      · intro r
        rw [List.foldl_cons, List.foldl_cons]
        simp only [Option.bind_some]
        rw [oneSetting_verdict, g1]
        exact h3 _
  obtain ⟨f1, f2⟩ := foldl_verdicts vs m none
  refine ⟨vs, (vs.foldl applyVerdict (m, none)).1, hv1, hv2, ?_, f1⟩
  rw [fromString, settings_join xs m none hamp, hv3 (m, none)]
  have : vs.foldl applyVerdict (m, none) = ((vs.foldl applyVerdict (m, none)).1, reported vs) := by
    rw [Prod.ext_iff]
    refine ⟨rfl, ?_⟩
    rw [f2, reported]
    split <;> simp
  rw [← this]

example := C102_exact (fun _ => none) [bs "a+b=%31", bs "c", bs "d=%2", [], bs "e=1:2"] (by decide +kernel)

/-- Every query text is a list of settings joined by ampersands, so `C102_exact` covers all texts. -/
theorem C102_covers_all_texts (q : Bytes) : ∃ xs, joinAnd xs = q ∧ ∀ x ∈ xs, Avoids x "&" := by
  have hand : bs "&" = [ch '&'] := by decide
  induction hn : q.length using Nat.strongRecOn generalizing q with
  | ind n ih =>
    cases hi : indexByte q (ch '&') with
    | none =>
      refine ⟨[q], rfl, ?_⟩
      intro x hx c hc e
      rw [hand, List.mem_singleton] at e
      rw [List.mem_singleton] at hx
      rw [hx] at hc
      exact (indexByte_none_iff q (ch '&')).mp hi (e ▸ hc)
    | some i =>
      obtain ⟨h1, h2, h3⟩ := indexByte_some q (ch '&') i hi
      obtain ⟨xs, g1, g2⟩ := ih (q.drop (i + 1)).length (by rw [List.length_drop]; omega)
        (q.drop (i + 1)) rfl
      have hfirst : Avoids (q.take i) "&" := by
        intro c hc e
        rw [hand, List.mem_singleton] at e
        exact h2 (e ▸ hc)
      cases xs with
      | nil =>
        refine ⟨[q.take i, []], ?_, ?_⟩
        · show q.take i ++ ch '&' :: [] = q
          rw [show ([] : Bytes) = q.drop (i + 1) from g1]; exact h1.symm
        · intro x hx
          simp only [List.mem_cons, List.not_mem_nil, or_false] at hx
          rcases hx with hx | hx
          · rw [hx]; exact hfirst
          · rw [hx]; exact fun c hc => by simp at hc
      | cons y ys =>
        refine ⟨q.take i :: y :: ys, ?_, ?_⟩
        · show q.take i ++ ch '&' :: joinAnd (y :: ys) = q
          rw [g1]; exact h1.symm
        · intro x hx
          rcases List.mem_cons.mp hx with hx | hx
          · rw [hx]; exact hfirst
          · exact g2 x hx

/-- C213 is violated: a setting with a colon in it is refused although it is well-formed; here for
every key and every value with a colon. -/
theorem C213_colon_refused_violated (m : Values) (key a b : Bytes) (hk : Avoids key "&")
    (ha : Avoids a "&") (hb : Avoids b "&") :
    fromString m (key ++ bs "=" ++ a ++ bs ":" ++ b) = some (m, some .badKey) := by
  have e1 : bs "=" = [ch '='] := by decide
  have e2 : bs ":" = [ch ':'] := by decide
  have hamp : ch '&' ∉ key ++ bs "=" ++ a ++ bs ":" ++ b := by
    rw [e1, e2]
    simp only [List.mem_append, List.mem_singleton, not_or]
    exact ⟨⟨⟨⟨fun h => hk _ h (by decide), by decide⟩, fun h => ha _ h (by decide)⟩, by decide⟩,
      fun h => hb _ h (by decide)⟩
  have := settings_join [key ++ bs "=" ++ a ++ bs ":" ++ b] m none (by
    intro x hx; rw [List.mem_singleton] at hx; rw [hx]; exact hamp)
  rw [fromString, show key ++ bs "=" ++ a ++ bs ":" ++ b = joinAnd [key ++ bs "=" ++ a ++ bs ":" ++ b] from rfl,
    this]
  rw [List.foldl_cons, List.foldl_nil]
  simp only [Option.bind_some]
  rw [oneSetting, if_neg (by rw [e1]; simp), if_pos]
  intro h
  rw [indexByte_none_iff] at h
  apply h
  rw [e2, signSemicolon]; simp

example := C213_colon_refused_violated (fun _ => none) (bs "time") (bs "12") (bs "30") (by decide) (by decide) (by decide)

/-- C213 is violated: a setting with a raw semicolon, which the documentation calls invalid, is
accepted. -/
theorem C213_semicolon_accepted_violated (m : Values) :
    ∃ m', fromString m (bs "a=1;b=2") = some (m', none) ∧
      m' (bs "a") = some ((m (bs "a")).getD [] ++ [bs "1;b=2"]) := by
  refine ⟨m.put (bs "a") ((m (bs "a")).getD [] ++ [bs "1;b=2"]), ?_, by simp [Values.put]⟩
  have := settings_join [bs "a=1;b=2"] m none (by decide)
  rw [fromString, show bs "a=1;b=2" = joinAnd [bs "a=1;b=2"] from rfl, this]
  rw [List.foldl_cons, List.foldl_nil]
  simp only [Option.bind_some]
  refine oneSetting_good m none _ (bs "a") (bs "1;b=2") (by decide) (by decide) ?_
  refine Means.mk (bs "a") (some (bs "1;b=2")) _ _ (by decide) ?_ ?_
  · exact ((C12_unescape_exact _ _).2 _).mp (by decide +kernel)
  · exact ((C12_unescape_exact _ _).2 _).mp (by decide +kernel)

/-- C213 is violated: the error is not the first one: a later bad key hides an earlier decoding
error, for every list of verdicts. -/
theorem C213_first_error_violated :
    fromString (fun _ => none) (bs "a=%zz") ≠ fromString (fun _ => none) (bs "a=%zz&b:") ∧
    (∀ vs e, reported (vs ++ [.bad e] ++ [.colon]) = some .badKey) ∧
    (fromString (fun _ => none) (bs "a=%zz&b:")).map (·.2) = some (some .badKey) ∧
    (fromString (fun _ => none) (bs "a=%zz")).map (·.2) = some (some (.unescape .invalidURLEscape)) := by
  have h1 : (fromString (fun _ => none) (bs "a=%zz&b:")).map (·.2) = some (some .badKey) := by
    decide +kernel
  have h2 : (fromString (fun _ => none) (bs "a=%zz")).map (·.2) =
      some (some (.unescape .invalidURLEscape)) := by decide +kernel
  refine ⟨?_, ?_, h1, h2⟩
  · intro h; rw [h, h1] at h2; simp at h2
  · intro vs e; simp [reported]

/-! ## C101: writing a query and reading it back -/

/-- The encoded text of one pair. -/
def pairText (p : Bytes × Bytes) : Bytes :=
  p.1.flatMap (escByte .queryComponent) ++ ch '=' :: p.2.flatMap (escByte .queryComponent)

theorem joinAnd_snoc (xs : List Bytes) (y : Bytes) (h : ∀ x ∈ xs, x ≠ []) :
    joinAnd (xs ++ [y]) =
      joinAnd xs ++ (if (joinAnd xs).length > 0 then [ch '&'] else []) ++ y := by
  induction xs with
  | nil => simp [joinAnd]
  | cons x xs ih =>
    have hx := h x (by simp)
    have hx' : 0 < x.length := List.length_pos_iff.mpr hx
    have := ih (fun z hz => h z (by simp [hz]))
    cases xs with
    | nil => simp [joinAnd, hx']
    | cons z zs =>
      show x ++ ch '&' :: joinAnd (z :: zs ++ [y]) = _
      rw [this]
      have hz : 0 < (joinAnd (z :: zs)).length := by
        have hzl := List.length_pos_iff.mpr (h z (by simp))
        cases zs with
        | nil => simpa [joinAnd] using hzl
        | cons w ws => simp [joinAnd]; omega
      rw [if_pos hz]
      have : 0 < (joinAnd (x :: z :: zs)).length := by simp [joinAnd]; omega
      rw [if_pos this]
      simp [joinAnd]

theorem pairText_ne (p : Bytes × Bytes) : pairText p ≠ [] := by simp [pairText]

theorem writeKey_eq (ps : List (Bytes × Bytes)) (key : Bytes) (vs : List Bytes) :
    writeKey (joinAnd (ps.map pairText)) key vs =
      some (joinAnd ((ps ++ vs.map (fun v => (key, v))).map pairText)) := by
  induction vs generalizing ps with
  | nil => simp [writeKey]
  | cons v vs ih =>
    unfold writeKey
    rw [escape_eq, escape_eq]
    simp only
    have := joinAnd_snoc (ps.map pairText) (pairText (key, v))
      (fun x hx => by obtain ⟨p, _, e⟩ := List.mem_map.mp hx; rw [← e]; exact pairText_ne p)
    have e : joinAnd (ps.map pairText) ++
        (if (joinAnd (ps.map pairText)).length > 0 then [ch '&'] else []) ++
        key.flatMap (escByte .queryComponent) ++ [ch '='] ++ v.flatMap (escByte .queryComponent) =
        joinAnd ((ps ++ [(key, v)]).map pairText) := by
      rw [List.map_append, List.map_singleton, this]
      simp [pairText]
    rw [e, ih]
    simp

/-- All pairs of a query in the order in which its keys are walked. -/
def pairsIn (m : Values) (order : List Bytes) : List (Bytes × Bytes) :=
  order.flatMap fun k => ((m k).getD []).map fun v => (k, v)

theorem toString_eq (m : Values) (order : List Bytes) :
    toString m order = some (joinAnd ((pairsIn m order).map pairText)) := by
  have key : ∀ (order : List Bytes) (ps : List (Bytes × Bytes)),
      order.foldl (fun b k => b.bind fun buf => writeKey buf k ((m k).getD []))
        (some (joinAnd (ps.map pairText))) =
      some (joinAnd ((ps ++ pairsIn m order).map pairText)) := by
    intro order
    induction order with
    | nil => intro ps; simp [pairsIn]
    | cons k ks ih =>
      intro ps
      rw [List.foldl_cons]
      simp only [Option.bind_some]
      rw [writeKey_eq, ih]
      simp [pairsIn]
  exact key order []

theorem valuesOf_pairsIn (m : Values) (order : List Bytes) (hn : order.Nodup) (k : Bytes) :
    valuesOf k (pairsIn m order) = if k ∈ order then (m k).getD [] else [] := by
  induction order with
  | nil => simp [pairsIn, valuesOf]
  | cons x xs ih =>
    obtain ⟨h1, h2⟩ := List.nodup_cons.mp hn
    have e : pairsIn m (x :: xs) = ((m x).getD []).map (fun v => (x, v)) ++ pairsIn m xs := rfl
    have e2 : valuesOf k (((m x).getD []).map (fun v => (x, v))) = if x = k then (m x).getD [] else [] := by
      unfold valuesOf
      rw [List.filterMap_map]
      by_cases hk : x = k
      · simp only [Function.comp_def, hk, if_true]; simp
      · simp only [Function.comp_def, hk, if_false]; simp
    rw [e, valuesOf_append, e2, ih h2]
    by_cases hk : x = k
    · subst hk; simp [h1]
    · rw [if_neg hk]; simp [Ne.symm hk]

theorem mem_pairText (p : Bytes × Bytes) : Avoids (pairText p) "&:" ∧ Means (pairText p) p := by
  obtain ⟨k, v⟩ := p
  have no : ∀ s : Bytes, ∀ c ∈ s.flatMap (escByte .queryComponent), c ∉ bs "&=#;?/: @\"<>[]'" :=
    fun s => (C11_no_delimiters s _).1 (escape_eq s .queryComponent)
  have dec : ∀ s : Bytes, Decodes .queryComponent (s.flatMap (escByte .queryComponent)) s := by
    intro s
    obtain ⟨t, h1, h2⟩ := C10_roundtrip s .queryComponent ⟨by decide, by decide⟩
    rw [escape_eq] at h1
    rw [Option.some.inj h1]
    exact ((C12_unescape_exact _ _).2 _).mp h2
  refine ⟨?_, ?_⟩
  · intro c hc e
    have hsub : ∀ c ∈ bs "&:", c ∈ bs "&=#;?/: @\"<>[]'" := by decide
    unfold pairText at hc
    rcases List.mem_append.mp hc with h | h
    · exact no k c h (hsub c e)
    · rcases List.mem_cons.mp h with h | h
      · rw [h] at e; exact absurd e (by decide)
      · exact no v c h (hsub c e)
  · refine Means.mk (k.flatMap (escByte .queryComponent)) (some (v.flatMap (escByte .queryComponent)))
      k v ?_ (dec k) (dec v)
    intro c hc e
    have hsub : ∀ c ∈ bs "=", c ∈ bs "&=#;?/: @\"<>[]'" := by decide
    exact no k c hc (hsub c e)

/-- C101: a query that is written and read into an empty query comes back with the same values for
every key, in the same order per key, whatever the keys and values are and in whatever order the
runtime walks the map. -/
theorem C101_round_trip (m : Values) (order : List Bytes) (hn : order.Nodup)
    (hall : ∀ k, k ∈ order ↔ (m k).isSome) :
    ∃ t m', toString m order = some t ∧ fromString (fun _ => none) t = some (m', none) ∧
      ∀ k, (m' k).getD [] = (m k).getD [] := by
  have hlen : ((pairsIn m order).map pairText).length = (pairsIn m order).length := List.length_map _
  obtain ⟨m', h1, h2, _⟩ := C213_all_good_partial (fun _ => none) ((pairsIn m order).map pairText)
    (pairsIn m order)
    (fun x hx => by
      obtain ⟨p, _, e⟩ := List.mem_map.mp hx
      rw [← e]; exact ⟨pairText_ne p, (mem_pairText p).1⟩)
    hlen
    (fun i x p e1 e2 => by
      rw [List.getElem?_map, e2] at e1
      rw [← Option.some.inj e1]
      exact (mem_pairText p).2)
  refine ⟨_, m', toString_eq m order, h1, ?_⟩
  intro k
  rw [h2 k, valuesOf_pairsIn m order hn k]
  by_cases hk : k ∈ order
  · simp [hk]
  · rw [if_neg hk]
    have := mt (hall k).mpr hk
    simp only [Option.isSome_iff_ne_none, ne_eq, Decidable.not_not] at this
    simp [this]

example := C101_round_trip (fun k => if k = bs "a&b" then some [bs "1 2", bs "x=%"] else if k = bs ":" then some [bs ""] else none)
  [bs ":", bs "a&b"] (by decide) (fun k => by by_cases h1 : k = bs "a&b" <;> by_cases h2 : k = bs ":" <;> simp [h1, h2] <;> decide)

/-- C101: a key with at least one value is also present afterwards, and no other key is. -/
theorem C101_keys (m : Values) (order : List Bytes) (hn : order.Nodup)
    (hall : ∀ k, k ∈ order ↔ (m k).isSome) (hne : ∀ k vs, m k = some vs → vs ≠ []) :
    ∃ t, toString m order = some t ∧ fromString (fun _ => none) t = some (m, none) := by
  refine ⟨_, toString_eq m order, ?_⟩
  obtain ⟨m', h1, h2, h3⟩ := C213_all_good_partial (fun _ => none) ((pairsIn m order).map pairText)
    (pairsIn m order)
    (fun x hx => by
      obtain ⟨p, _, e⟩ := List.mem_map.mp hx
      rw [← e]; exact ⟨pairText_ne p, (mem_pairText p).1⟩)
    (List.length_map _)
    (fun i x p e1 e2 => by
      rw [List.getElem?_map, e2] at e1
      rw [← Option.some.inj e1]
      exact (mem_pairText p).2)
  have hval : ∀ k, (m' k).getD [] = (m k).getD [] := by
    intro k
    rw [h2 k, valuesOf_pairsIn m order hn k]
    by_cases hk : k ∈ order
    · simp [hk]
    · rw [if_neg hk]
      have := mt (hall k).mpr hk
      simp only [Option.isSome_iff_ne_none, ne_eq, Decidable.not_not] at this
      simp [this]
  have hmm : m' = m := by
    funext k
    have hv := hval k
    cases hk : m k with
    | none =>
      have h3k := h3 k
      have hany : (pairsIn m order).any (fun p => decide (p.1 = k)) = false := by
        rw [List.any_eq_false]
        intro p hp e
        obtain ⟨x, hx, hp'⟩ := List.mem_flatMap.mp hp
        obtain ⟨v, hv', e'⟩ := List.mem_map.mp hp'
        rw [decide_eq_true_eq] at e
        rw [← e'] at e
        simp only at e
        rw [e, hk] at hv'
        simp at hv'
      rw [hany] at h3k
      simpa using h3k
    | some vs =>
      rw [hk] at hv
      cases hk' : m' k with
      | none =>
        rw [hk'] at hv
        exact absurd hv.symm (hne k vs hk)
      | some vs' =>
        rw [hk'] at hv
        simp only [Option.getD_some] at hv
        rw [hv]
  rw [h1, hmm]

/-- Keys and values with delimiters, spaces, percent signs and repeated keys. -/
example : (toString (fun k => if k = bs "a&b" then some [bs "1 2", bs "x=%"] else
      if k = bs ":" then some [bs ""] else none) [bs ":", bs "a&b"]) =
    some (bs "%3A=&a%26b=1+2&a%26b=x%3D%25") := by decide +kernel

/-! ## C103: changing a query -/

/-- C103: setting a key gives it exactly the one value and touches no other key. -/
theorem C103_set (q : Query) (key value k : Bytes) (m : Values) (h : q.list = some m) :
    ∃ q', q.set key value = some q' ∧ q'.get key = value ∧ q'.has key = true ∧
      q'.lookup key = [value] ∧
      (k ≠ key → q'.get k = q.get k ∧ q'.lookup k = q.lookup k ∧ q'.has k = q.has k) := by
  refine ⟨⟨some (m.put key [value])⟩, by simp [Query.set, h], ?_, ?_, ?_, ?_⟩
  · simp [Query.get, Query.lookup, Values.put]
  · simp [Query.has, Values.put]
  · simp [Query.lookup, Values.put]
  · intro hk
    simp [Query.get, Query.lookup, Query.has, Values.put, hk, h]

example := C103_set ⟨some fun k => if k = bs "a" then some [bs "1", bs "2"] else none⟩ (bs "a") (bs "3") (bs "b") _ rfl

/-- C103: adding puts the value after those the key had; the first value stays what `Get` returns. -/
theorem C103_add (q : Query) (key value k : Bytes) (m : Values) (h : q.list = some m) :
    ∃ q', q.add key value = some q' ∧ q'.lookup key = q.lookup key ++ [value] ∧
      q'.get key = (if q.lookup key = [] then value else q.get key) ∧ q'.has key = true ∧
      (k ≠ key → q'.get k = q.get k ∧ q'.lookup k = q.lookup k ∧ q'.has k = q.has k) := by
  refine ⟨⟨some (m.put key ((m key).getD [] ++ [value]))⟩, by simp [Query.add, h], ?_, ?_, ?_, ?_⟩
  · simp [Query.lookup, Values.put, h]
  · simp only [Query.get, Query.lookup, Values.put, h, if_true, Option.getD_some]
    cases (m key).getD [] <;> simp
  · simp [Query.has, Values.put]
  · intro hk
    simp [Query.get, Query.lookup, Query.has, Values.put, hk, h]

example := C103_add ⟨some fun k => if k = bs "a" then some [bs "1", bs "2"] else none⟩ (bs "a") (bs "3") (bs "b") _ rfl

/-- C103: deleting removes the key with all its values and touches no other key; on a query that was
never initialised it does nothing. -/
theorem C103_del (q : Query) (key k : Bytes) :
    (q.del key).has key = false ∧ (q.del key).get key = [] ∧ (q.del key).lookup key = [] ∧
    (k ≠ key → (q.del key).get k = q.get k ∧ (q.del key).lookup k = q.lookup k ∧
      (q.del key).has k = q.has k) := by
  cases h : q.list with
  | none => simp [Query.del, Query.has, Query.get, Query.lookup, h]
  | some m =>
    refine ⟨by simp [Query.del, Query.has, h], by simp [Query.del, Query.get, Query.lookup, h],
      by simp [Query.del, Query.lookup, h], ?_⟩
    intro hk
    simp [Query.del, Query.get, Query.lookup, Query.has, h, hk]

/-- C214 is violated: changing a query that was never initialised panics. -/
theorem C214_zero_query_violated (key value : Bytes) :
    Query.set ⟨none⟩ key value = none ∧ Query.add ⟨none⟩ key value = none :=
  ⟨rfl, rfl⟩

/-- A history of changes to a query. -/
inductive Change
  | set (k v : Bytes)
  | add (k v : Bytes)
  | del (k : Bytes)

def Change.apply (q : Query) : Change → Option Query
  | .set k v => q.set k v
  | .add k v => q.add k v
  | .del k => some (q.del k)

/-- What a history of changes makes of the values of one key. -/
def Change.effect (key : Bytes) (vs : List Bytes) : Change → List Bytes
  | .set k v => if k = key then [v] else vs
  | .add k v => if k = key then vs ++ [v] else vs
  | .del k => if k = key then [] else vs

/-- C103: after any history of changes to an initialised query, every key has exactly the values that
the changes to that key gave it, and `Get` returns the first of them. -/
theorem C103_history (q : Query) (cs : List Change) (h : q.list ≠ none) :
    ∃ q', cs.foldlM Change.apply q = some q' ∧
      ∀ key, q'.lookup key = cs.foldl (Change.effect key) (q.lookup key) ∧
        q'.get key = (q'.lookup key).headD [] := by
  induction cs generalizing q with
  | nil => exact ⟨q, rfl, fun key => ⟨rfl, by unfold Query.get; cases q.lookup key <;> rfl⟩⟩
  | cons c cs ih =>
    obtain ⟨m, hm⟩ := Option.ne_none_iff_exists'.mp h
    have step : ∃ q1, c.apply q = some q1 ∧ q1.list ≠ none ∧
        ∀ key, q1.lookup key = Change.effect key (q.lookup key) c := by
      cases c with
      | set k v =>
        refine ⟨⟨some (m.put k [v])⟩, by simp [Change.apply, Query.set, hm], by simp, ?_⟩
        intro key
        by_cases hk : k = key
        · subst hk; simp [Query.lookup, Values.put, Change.effect]
        · simp [Query.lookup, Values.put, Change.effect, hm, hk, Ne.symm hk]
      | add k v =>
        refine ⟨⟨some (m.put k ((m k).getD [] ++ [v]))⟩, by simp [Change.apply, Query.add, hm], by simp, ?_⟩
        intro key
        by_cases hk : k = key
        · subst hk; simp [Query.lookup, Values.put, Change.effect, hm]
        · simp [Query.lookup, Values.put, Change.effect, hm, hk, Ne.symm hk]
      | del k =>
        refine ⟨q.del k, rfl, by simp [Query.del, hm], ?_⟩
        intro key
        by_cases hk : k = key
        · subst hk; simp [Query.lookup, Query.del, Change.effect, hm]
        · simp [Query.lookup, Query.del, Change.effect, hm, hk, Ne.symm hk]
    obtain ⟨q1, s1, s2, s3⟩ := step
    obtain ⟨q', h1, h2⟩ := ih q1 s2
    refine ⟨q', ?_, ?_⟩
    · rw [List.foldlM_cons, s1]; exact h1
    · intro key
      rw [List.foldl_cons, ← s3 key]; exact h2 key

example := C103_history ⟨some fun k => if k = bs "a" then some [bs "1", bs "2"] else none⟩ [.add (bs "a") (bs "3"), .del (bs "b"), .set (bs "c") []]
  nofun

/-- What a change makes of the presence of one key. -/
def Change.presence (key : Bytes) (there : Bool) : Change → Bool
  | .set k _ => if k = key then true else there
  | .add k _ => if k = key then true else there
  | .del k => if k = key then false else there

/-- C103: after any history of changes to an initialised query, `Has` finds a key exactly if the last change about it set or added
a value, or nothing was changed about it and it was there before. -/
theorem C103_history_has (q q' : Query) (cs : List Change) (h : q.list ≠ none) (hr : cs.foldlM Change.apply q = some q')
    (key : Bytes) : q'.has key = cs.foldl (Change.presence key) (q.has key) := by
  induction cs generalizing q with
  | nil => cases hr; rfl
  | cons c cs ih =>
    obtain ⟨m, hm⟩ := Option.ne_none_iff_exists'.mp h
    have step : ∃ q1, c.apply q = some q1 ∧ q1.list ≠ none ∧ q1.has key = Change.presence key (q.has key) c := by
      cases c with
      | set k v =>
        refine ⟨⟨some (m.put k [v])⟩, by simp [Change.apply, Query.set, hm], by simp, ?_⟩
        by_cases hk : k = key
        · subst hk; simp [Query.has, Values.put, Change.presence]
        · simp [Query.has, Values.put, Change.presence, hm, hk, Ne.symm hk]
      | add k v =>
        refine ⟨⟨some (m.put k ((m k).getD [] ++ [v]))⟩, by simp [Change.apply, Query.add, hm], by simp, ?_⟩
        by_cases hk : k = key
        · subst hk; simp [Query.has, Values.put, Change.presence]
        · simp [Query.has, Values.put, Change.presence, hm, hk, Ne.symm hk]
      | del k =>
        refine ⟨q.del k, rfl, by simp [Query.del, hm], ?_⟩
        by_cases hk : k = key
        · subst hk; simp [Query.has, Query.del, Change.presence, hm]
        · simp [Query.has, Query.del, Change.presence, hm, hk, Ne.symm hk]
    obtain ⟨q1, s1, s2, s3⟩ := step
    rw [List.foldlM_cons, s1] at hr
    rw [List.foldl_cons, ← s3]
    exact ih q1 s2 hr

example : ∃ q', [Change.add (bs "a") (bs "3"), .del (bs "b"), .set (bs "c") []].foldlM Change.apply
    ⟨some fun k => if k = bs "b" then some [bs "1", bs "2"] else none⟩ = some q' ∧ q'.has (bs "a") = true ∧ q'.has (bs "b") = false :=
  ⟨_, rfl, by decide +kernel, by decide +kernel⟩

end Memar.Uri
