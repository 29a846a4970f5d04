import Verif.Www.Lemmas

/-!
# C49: localisation of pages; C88: combination of scripts; C89: mixing pages and styles into scripts
-/

namespace Memar.Www
open Memar Decimal

/-! ## C49 -/

/-- A page: a first piece of text, then placeholders (the number of a text) each followed by a piece. -/
structure Page where
  first : Bytes
  rest : List (Nat × Bytes)

/-- The source of a page with placeholders written as `mark k]close`. -/
def Page.source (mark close : Bytes) (p : Page) : Bytes :=
  p.first ++ (p.rest.map fun x => mark ++ (decDigits x.1 ++ ch ']' :: (close ++ x.2))).flatten

/-- The intended result: every placeholder replaced by its text. -/
def Page.filled (text : List Bytes) (p : Page) : Bytes :=
  p.first ++ (p.rest.map fun x => (text[x.1]?).getD [] ++ x.2).flatten

/-- The pieces do not contain the marker, and the numbers are those of existing texts. -/
def Page.Ok (mark : Bytes) (text : List Bytes) (p : Page) : Prop :=
  (¬ mark <:+: p.first) ∧ ∀ x ∈ p.rest, (¬ mark <:+: x.2) ∧ x.1 < 256 ∧ x.1 < text.length

theorem localise_page (mark close : Bytes) (hm : EndsUniquely mark) (hb : ch ']' ∉ mark) (text : List Bytes)
    (rest : List (Nat × Bytes)) (first mix : Bytes) (hf : ¬ mark <:+: first)
    (hr : ∀ x ∈ rest, (¬ mark <:+: close ++ x.2) ∧ x.1 < 256 ∧ x.1 < text.length) :
    localiseLoop mark text (Page.source mark close ⟨first, rest⟩) mix =
      some (mix ++ (first ++ (rest.map fun x => (text[x.1]?).getD [] ++ (close ++ x.2)).flatten)) := by
  induction rest generalizing first mix with
  | nil =>
    unfold Page.source
    simp only [List.map_nil, List.flatten_nil, List.append_nil]
    rw [localiseLoop, (indexOf_nil_iff first mark).mpr hf]
  | cons x r ih =>
    obtain ⟨hx1, hx2, hx3⟩ := hr x (by simp)
    have e : Page.source mark close ⟨first, x :: r⟩ =
        first ++ (mark ++ (decDigits x.1 ++ ch ']' :: Page.source mark close ⟨close ++ x.2, r⟩)) := by
      simp [Page.source]
    rw [e, localise_step mark hm hb text first _ _ mix hf (rbracket_not_digits _), parse_decDigits _ hx2]
    simp only [List.getElem?_eq_getElem hx3]
    rw [ih (close ++ x.2) _ hx1 fun y hy => hr y (by simp [hy])]
    simp [List.getElem?_eq_getElem hx3]

/-- C49 for scripts: the result is the page with every placeholder replaced by its text. -/
theorem C49_js (p : Page) (text : List Bytes) (h : p.Ok jsMark text) :
    localiseJS (p.source jsMark []) text = some (p.filled text) := by
  have := localise_page jsMark [] jsMark_unique (by decide) text p.rest p.first [] h.1
    (fun x hx => by simpa using h.2 x hx)
  simpa [localiseJS, Page.filled] using this

example : localiseJS (bs "a(LocaleText[1]+LocaleText[0])") [bs "x", bs "yy"] = some (bs "a(yy+x)") := by
  decide +kernel

example : Page.Ok jsMark [bs "x", bs "yy"] ⟨bs "a(", [(1, bs "+"), (0, bs ")")]⟩ := by
  refine ⟨by decide, ?_⟩
  intro x hx
  simp at hx
  rcases hx with rfl | rfl <;> exact ⟨by decide, by decide, by decide⟩

theorem brace_prefix_html (x : Bytes) (h : ¬ htmlMark <:+: x) : ¬ htmlMark <:+: [ch '}'] ++ x := by
  intro hi
  rw [List.singleton_append, List.infix_cons_iff] at hi
  rcases hi with hi | hi
  · obtain ⟨t, ht⟩ := hi
    have : (htmlMark ++ t).head? = some (ch '$') := rfl
    rw [ht] at this
    revert this; simp; decide
  · exact h hi

/-- C197 for pages written with `${LocaleText[k]}`: the closing brace of every placeholder stays in the
result.
Missing: that the closing braces are removed, and placeholders without a text (refuted:
`C197_html_violated`, `C197_panic_violated`). -/
theorem C197_html_partial (p : Page) (text : List Bytes) (h : p.Ok htmlMark text) :
    localiseHTML (p.source htmlMark (bs "}")) text =
      some (Page.filled text ⟨p.first, p.rest.map fun x => (x.1, ch '}' :: x.2)⟩) := by
  have := localise_page htmlMark (bs "}") htmlMark_unique (by decide) text p.rest p.first [] h.1
    (fun x hx => ⟨brace_prefix_html _ (h.2 x hx).1, (h.2 x hx).2⟩)
  simp only [localiseHTML, Page.filled]
  rw [this]
  simp [bs, ch, Function.comp_def]

example := C197_html_partial ⟨bs "<p>", [(1, bs "</p>"), (0, bs "!")]⟩ [bs "x", bs "yy"] (by
  refine ⟨by decide +kernel, ?_⟩
  intro x hx
  simp at hx
  rcases hx with rfl | rfl <;> exact ⟨by decide +kernel, by decide +kernel, by decide +kernel⟩)

theorem sum_map_succ {α} (f : α → Nat) (l : List α) :
    (l.map fun x => f x + 1).sum = (l.map f).sum + l.length := by
  induction l with
  | nil => rfl
  | cons x l ih => simp [ih]; omega

/-- C197 fails for every page with a placeholder: the result is not the filled page (it has one more
byte for every placeholder). -/
theorem C197_html_violated (p : Page) (text : List Bytes) (h : p.Ok htmlMark text) (hne : p.rest ≠ []) :
    localiseHTML (p.source htmlMark (bs "}")) text ≠ some (p.filled text) := by
  rw [C197_html_partial p text h]
  intro he
  have hl := congrArg (fun o => (o.map List.length).getD 0) he
  have hpos : 0 < p.rest.length := List.length_pos_iff.mpr hne
  simp only [Page.filled, Option.map_some, Option.getD_some, List.length_append, List.length_flatten, List.map_map,
    Function.comp_def, List.length_cons] at hl
  have := sum_map_succ (fun x : Nat × Bytes => ((text[x.1]?).getD []).length + x.2.length) p.rest
  simp only [Nat.add_assoc] at this hl
  omega

example : localiseHTML (bs "<p>${LocaleText[0]}</p>") [bs "Hi"] = some (bs "<p>Hi}</p>") := by decide +kernel

/-- C197: a placeholder whose number has no text panics, and so does one that is never closed. -/
theorem C197_panic_violated (mark : Bytes) (hm : EndsUniquely mark) (hb : ch ']' ∉ mark) (text : List Bytes)
    (first rest : Bytes) (k : Nat) (hf : ¬ mark <:+: first) (mix : Bytes) :
    (k < 256 → text.length ≤ k →
      localiseLoop mark text (first ++ (mark ++ (decDigits k ++ ch ']' :: rest))) mix = none) ∧
    (ch ']' ∉ rest → localiseLoop mark text (first ++ (mark ++ rest)) mix = none) := by
  constructor
  · intro hk ht
    rw [localise_step mark hm hb text first _ _ mix hf (rbracket_not_digits _), parse_decDigits _ hk]
    simp only
    rw [List.getElem?_eq_none ht]
  · intro hr
    rw [localiseLoop, indexOf_first mark hm first _ hf]
    simp only
    have hd : (first ++ (mark ++ rest)).drop first.length = mark ++ rest := List.drop_left' rfl
    have hn : indexByte (mark ++ rest) (ch ']') = none := by
      rw [indexByte_none_iff]; simp [hb, hr]
    split
    · rfl
    · rename_i b h; rw [hd, hn] at h; cases h

example : localiseLoop jsMark [bs "x"] (bs "a" ++ (jsMark ++ (decDigits 3 ++ ch ']' :: bs "b"))) [] = none ∧
    localiseLoop jsMark [bs "x"] (bs "a" ++ (jsMark ++ bs "0 b")) [] = none :=
  ⟨(C197_panic_violated jsMark jsMark_unique (by decide +kernel) [bs "x"] (bs "a") (bs "b") 3 (by decide +kernel) []).1 (by decide +kernel) (by decide +kernel),
    (C197_panic_violated jsMark jsMark_unique (by decide +kernel) [bs "x"] (bs "a") (bs "0 b") 3 (by decide +kernel) []).2 (by decide +kernel)⟩

/-- C49: a bracket that does not hold a number is removed without a trace. -/
theorem C49_bad_number (mark : Bytes) (hm : EndsUniquely mark) (hb : ch ']' ∉ mark) (text : List Bytes)
    (first num rest mix : Bytes) (hf : ¬ mark <:+: first) (hn : ch ']' ∉ num) (hp : parseUint8 num = none) :
    localiseLoop mark text (first ++ (mark ++ (num ++ ch ']' :: rest))) mix =
      localiseLoop mark text rest (mix ++ first) := by
  rw [localise_step mark hm hb text first num rest mix hf hn, hp]

example : localiseJS (bs "a LocaleText[i] b") [bs "x"] = some (bs "a  b") := by decide +kernel

/-- C49: text without the marker is returned as it is. -/
theorem C49_plain (mark : Bytes) (text : List Bytes) (html : Bytes) (h : ¬ mark <:+: html) :
    localiseLoop mark text html [] = some html := by
  rw [localiseLoop, (indexOf_nil_iff html mark).mpr h]; rfl

example := C49_plain jsMark [bs "x"] (bs "let LocaleTexts = 1") (by decide +kernel)

/-! ## C88: imports -/

/-- A script that begins with import statements: one byte (a line break), `import `, a name, the quoted
path; then a body without the word. -/
def importsText (stmts : List (Byte × Bytes × Bytes)) (body : Bytes) : Bytes :=
  (stmts.map fun s => s.1 :: (importWord ++ (s.2.1 ++ ch '\'' :: (s.2.2 ++ [ch '\''])))).flatten ++ body

/-- C88: an import statement anywhere in a script — the first one, with one byte before it — is taken out
together with that byte; all the code before and behind it stays, and its path is added to the list. -/
theorem C88_extract_anywhere (pre : Bytes) (c : Byte) (name path rest : Bytes) (acc : List Bytes)
    (hpre : ¬ importWord <:+: pre ++ [c]) (hn : ch '\'' ∉ name) (hp : ch '\'' ∉ path) :
    extractLoop (pre ++ c :: (importWord ++ (name ++ ch '\'' :: (path ++ ch '\'' :: rest)))) acc =
      extractLoop (pre ++ rest) (acc ++ [path]) := by
  have h1 : indexOf (pre ++ c :: (importWord ++ (name ++ ch '\'' :: (path ++ ch '\'' :: rest)))) importWord =
      some (pre.length + 1) := by
    rw [List.append_cons, indexOf_first importWord importWord_unique (pre ++ [c]) _ hpre]
    simp
  have hq : indexByte (importWord ++ (name ++ ch '\'' :: (path ++ ch '\'' :: rest))) (ch '\'') =
      some (importWord.length + name.length) := by
    have := indexByte_append (importWord ++ name) (path ++ ch '\'' :: rest) (ch '\'') (by
      simp only [List.mem_append, not_or]; exact ⟨by decide, hn⟩)
    rw [List.append_assoc, List.length_append] at this
    exact this
  have hd : (pre ++ c :: (importWord ++ (name ++ ch '\'' :: (path ++ ch '\'' :: rest)))).drop
      (pre.length + 1 + (importWord.length + name.length) + 1) = path ++ ch '\'' :: rest := by
    have : pre ++ c :: (importWord ++ (name ++ ch '\'' :: (path ++ ch '\'' :: rest))) =
      (pre ++ c :: (importWord ++ name ++ [ch '\''])) ++ (path ++ ch '\'' :: rest) := by simp
    rw [this, List.drop_left' (by simp; omega)]
  have hp2 := indexByte_append path rest (ch '\'') hp
  have hd2 : (pre ++ c :: (importWord ++ (name ++ ch '\'' :: (path ++ ch '\'' :: rest)))).drop
      (pre.length + 1 + (importWord.length + name.length) + 1 + path.length + 1) = rest := by
    rw [Nat.add_assoc (pre.length + 1 + (importWord.length + name.length) + 1), ← List.drop_drop, hd, List.append_cons,
      List.drop_left' (by simp)]
  have ht : ((pre ++ c :: (importWord ++ (name ++ ch '\'' :: (path ++ ch '\'' :: rest)))).take
      (pre.length + 1 + (importWord.length + name.length) + 1 + path.length)).drop
        (pre.length + 1 + (importWord.length + name.length) + 1) = path := by
    rw [List.drop_take, hd]
    rw [List.take_left' (by omega)]
  have hd1 : (pre ++ c :: (importWord ++ (name ++ ch '\'' :: (path ++ ch '\'' :: rest)))).drop (pre.length + 1) =
    importWord ++ (name ++ ch '\'' :: (path ++ ch '\'' :: rest)) := by
    rw [List.append_cons, List.drop_left' (by simp)]
  have htk : (pre ++ c :: (importWord ++ (name ++ ch '\'' :: (path ++ ch '\'' :: rest)))).take (pre.length + 1 - 1) = pre := by
    rw [Nat.add_sub_cancel, List.take_left' rfl]
  rw [extractLoop, h1]
  simp only
  split
  · rename_i h; rw [hd1, hq] at h; cases h
  · rename_i q h
    rw [hd1, hq] at h
    cases h
    split
    · rename_i h; rw [hd, hp2] at h; cases h
    · rename_i e h
      rw [hd, hp2] at h
      cases h
      rw [if_neg (by omega), hd2, ht, htk]

example : extractLoop (bs "let x = 1\nimport a from './a.js'\nrun(x)") [] =
    some (bs "let x = 1\nrun(x)", [bs "./a.js"]) := by decide +kernel

theorem extract_step (c : Byte) (name path rest : Bytes) (acc : List Bytes) (hn : ch '\'' ∉ name) (hp : ch '\'' ∉ path) :
    extractLoop (c :: (importWord ++ (name ++ ch '\'' :: (path ++ ch '\'' :: rest)))) acc =
      extractLoop rest (acc ++ [path]) := by
  refine C88_extract_anywhere [] c name path rest acc ?_ hn hp
  intro h
  have := h.length_le
  revert this; simp [importWord, bs]

/-- C88. The import statements are taken out and their paths returned in order; the body is unchanged. -/
theorem C88_extract (stmts : List (Byte × Bytes × Bytes)) (body : Bytes)
    (hs : ∀ s ∈ stmts, ch '\'' ∉ s.2.1 ∧ ch '\'' ∉ s.2.2) (hbody : ¬ importWord <:+: body) :
    extractImports (importsText stmts body) = some (body, stmts.map fun s => s.2.2) := by
  have : ∀ acc, extractLoop (importsText stmts body) acc = some (body, acc ++ stmts.map fun s => s.2.2) := by
    induction stmts with
    | nil =>
      intro acc
      rw [importsText, List.map_nil, List.flatten_nil, List.nil_append, extractLoop,
        (indexOf_nil_iff body importWord).mpr hbody]
      simp
    | cons s r ih =>
      intro acc
      have e : importsText (s :: r) body =
          s.1 :: (importWord ++ (s.2.1 ++ ch '\'' :: (s.2.2 ++ ch '\'' :: importsText r body))) := by
        simp [importsText]
      rw [e, extract_step _ _ _ _ _ (hs s (by simp)).1 (hs s (by simp)).2, ih fun x hx => hs x (by simp [hx])]
      simp
  exact this []

example : extractImports (bs "\nimport a from './a.js'\nimport './b.js'\nrun()") =
    some (bs "\nrun()", [bs "./a.js", bs "./b.js"]) := by decide +kernel

/-- C208 fails: a script that begins with an import statement panics. -/
theorem C208_first_line_violated (rest : Bytes) : extractImports (importWord ++ rest) = none := by
  unfold extractImports
  rw [extractLoop]
  have h1 : indexOf (importWord ++ rest) importWord = some 0 := by
    have := indexOf_first importWord importWord_unique [] rest (by decide)
    simpa using this
  rw [h1]
  simp only
  split
  · rfl
  · split
    · rfl
    · rw [if_pos trivial]

/-! ### The collected modules -/

/-- `y` is reached from `x` over imports. -/
inductive Reach (g : Nat → List Nat) : Nat → Nat → Prop
  | refl (x) : Reach g x x
  | step {x y z} : y ∈ g x → Reach g y z → Reach g x z

theorem Reach.tail {g : Nat → List Nat} {x y z : Nat} (h : Reach g x y) (hz : z ∈ g y) : Reach g x z := by
  induction h with
  | refl x => exact .step hz (.refl z)
  | step hm _ ih => exact .step hm (ih hz)

/-- Invariant of the collector: what has been collected is reachable, and the imports of every
extracted file have been collected. -/
structure Inv (g : Nat → List Nat) (main : Nat) (s : Collect) : Prop where
  sound : ∀ x ∈ s.imports, Reach g main x
  closed : ∀ x ∈ s.done, ∀ y ∈ g x, y ∈ s.imports

theorem inv_extract {g : Nat → List Nat} {main : Nat} {s : Collect} {f : Nat} (h : Inv g main s) (hf : Reach g main f) :
    Inv g main (s.extract g f) := by
  unfold Collect.extract
  split
  · exact h
  · constructor
    · intro x hx
      rcases List.mem_append.mp hx with hx | hx
      · exact h.sound x hx
      · exact hf.tail hx
    · intro x hx y hy
      rcases List.mem_cons.mp hx with rfl | hx
      · exact List.mem_append_right _ hy
      · exact List.mem_append_left _ (h.closed x hx y hy)

/-- Growth: nothing is forgotten, the list only grows at its end. -/
structure Grows (s t : Collect) : Prop where
  imports : s.imports <+: t.imports
  done : ∀ x ∈ s.done, x ∈ t.done

theorem Grows.refl (s : Collect) : Grows s s := ⟨List.prefix_rfl, fun _ h => h⟩
theorem Grows.trans {s t u : Collect} (h : Grows s t) (k : Grows t u) : Grows s u :=
  ⟨h.imports.trans k.imports, fun x hx => k.done x (h.done x hx)⟩

theorem grows_extract (g : Nat → List Nat) (s : Collect) (f : Nat) : Grows s (s.extract g f) := by
  unfold Collect.extract
  split
  · exact .refl s
  · exact ⟨List.prefix_append _ _, fun x hx => by simp [hx]⟩

theorem collectRec_grows (g : Nat → List Nat) (n : Nat) (s : Collect) (f : Nat) : Grows s (collectRec g n s f) := by
  induction n generalizing s f with
  | zero => exact .refl s
  | succ n ih =>
    rw [collectRec]
    refine (grows_extract g s f).trans ?_
    generalize (s.extract g f).imports.drop s.imports.length = l
    generalize s.extract g f = t
    induction l generalizing t with
    | nil => exact .refl t
    | cons x l ihl => exact (ih t x).trans (ihl _)

theorem collectRec_inv {g : Nat → List Nat} {main : Nat} (n : Nat) (s : Collect) (f : Nat) (h : Inv g main s)
    (hf : Reach g main f) : Inv g main (collectRec g n s f) := by
  induction n generalizing s f with
  | zero => exact h
  | succ n ih =>
    rw [collectRec]
    have h1 := inv_extract h hf
    have hl : ∀ x ∈ (s.extract g f).imports.drop s.imports.length, Reach g main x :=
      fun x hx => h1.sound x (List.mem_of_mem_drop hx)
    revert h1 hl
    generalize (s.extract g f).imports.drop s.imports.length = l
    generalize s.extract g f = t
    induction l generalizing t with
    | nil => intro h1 _; exact h1
    | cons x l ihl =>
      intro h1 hl
      exact ihl _ (ih t x h1 (hl x (by simp))) fun y hy => hl y (by simp [hy])

/-- Files of the project not yet extracted. -/
def pending (files : List Nat) (s : Collect) : Nat := (files.filter fun x => !decide (x ∈ s.done)).length

theorem pending_le {files : List Nat} {s t : Collect} (h : ∀ x ∈ s.done, x ∈ t.done) : pending files t ≤ pending files s := by
  unfold pending
  induction files with
  | nil => simp
  | cons x l ih =>
    simp only [List.filter_cons]
    by_cases h1 : x ∈ s.done
    · simp [h1, h x h1]; exact ih
    · by_cases h2 : x ∈ t.done
      · simp [h1, h2]; omega
      · simp [h1, h2]; exact ih

theorem pending_lt {files : List Nat} {s : Collect} {f : Nat} (hf : f ∈ files) (hd : f ∉ s.done) (l : List Nat) :
    pending files { imports := l, done := f :: s.done } < pending files s := by
  unfold pending
  induction files with
  | nil => cases hf
  | cons x r ih =>
    simp only [List.filter_cons]
    have hle : (r.filter fun x => !decide (x ∈ f :: s.done)).length ≤ (r.filter fun x => !decide (x ∈ s.done)).length :=
      pending_le (files := r) (s := s) (t := { imports := l, done := f :: s.done }) (by intro y hy; simp [hy])
    by_cases hx : x = f
    · subst hx
      simp [hd]
      simp at hle
      omega
    · rcases List.mem_cons.mp hf with h | h
      · exact absurd h.symm hx
      · have := ih h
        by_cases h1 : x ∈ s.done
        · simp [h1, hx] at this ⊢; exact this
        · simp [h1, hx] at this ⊢; exact this

/-- Everything behind position `k` of the list has been extracted. -/
def AllDone (k : Nat) (s : Collect) : Prop := ∀ x ∈ s.imports.drop k, x ∈ s.done

theorem collectRec_done (g : Nat → List Nat) (files : List Nat) (hg : ∀ x ∈ files, ∀ y ∈ g x, y ∈ files) :
    ∀ (n : Nat) (s : Collect) (f : Nat), f ∈ files → pending files s < n →
      f ∈ (collectRec g n s f).done ∧ AllDone s.imports.length (collectRec g n s f) := by
  intro n
  induction n with
  | zero => intro s f _ h; omega
  | succ n ih =>
    intro s f hf hp
    rw [collectRec]
    by_cases hd : f ∈ s.done
    · have e : s.extract g f = s := by unfold Collect.extract; rw [if_pos hd]
      rw [e]
      simp only [List.drop_length, List.foldl_nil]
      exact ⟨hd, by intro x hx; simp at hx⟩
    · have e : s.extract g f = { imports := s.imports ++ g f, done := f :: s.done } := by
        unfold Collect.extract; rw [if_neg hd]
      rw [e]
      have hdrop : (s.imports ++ g f).drop s.imports.length = g f := List.drop_left' rfl
      simp only [hdrop]
      -- the loop over the new imports
      have key : ∀ (l : List Nat) (t : Collect), (∀ x ∈ l, x ∈ files) → pending files t < n → f ∈ t.done →
          (∃ m, t.imports.drop s.imports.length = m ∧ ∀ x ∈ m, x ∈ t.done ∨ x ∈ l) → s.imports.length ≤ t.imports.length →
          f ∈ (l.foldl (fun s i => collectRec g n s i) t).done ∧
          AllDone s.imports.length (l.foldl (fun s i => collectRec g n s i) t) := by
        intro l
        induction l with
        | nil =>
          intro t _ _ hft ⟨m, hm, hx⟩ _
          refine ⟨hft, ?_⟩
          intro x hx'
          rw [List.foldl_nil, hm] at hx'
          rcases hx x hx' with h | h
          · exact h
          · cases h
        | cons i l ihl =>
          intro t hl hpt hft ⟨m, hm, hx⟩ hlen
          rw [List.foldl_cons]
          obtain ⟨h1, h2⟩ := ih t i (hl i (by simp)) hpt
          have hgr := collectRec_grows g n t i
          refine ihl _ (fun x hx => hl x (by simp [hx])) ?_ (hgr.done f hft) ⟨_, rfl, ?_⟩ ?_
          · exact Nat.lt_of_le_of_lt (pending_le hgr.done) hpt
          · intro x hx'
            obtain ⟨suf, hsuf⟩ := hgr.imports
            rw [← hsuf, List.drop_append_of_le_length hlen] at hx'
            rcases List.mem_append.mp hx' with hx' | hx'
            · rw [hm] at hx'
              rcases hx x hx' with h | h
              · exact Or.inl (hgr.done x h)
              · rcases List.mem_cons.mp h with rfl | h
                · exact Or.inl h1
                · exact Or.inr h
            · left
              apply h2
              rw [← hsuf, List.drop_left' rfl]
              exact hx'
          · exact Nat.le_trans hlen hgr.imports.length_le
      apply key
      · exact fun x hx => hg f hf x hx
      · have := pending_lt hf hd (s.imports ++ g f)
        omega
      · simp
      · exact ⟨g f, hdrop, fun x hx => Or.inr hx⟩
      · simp

/-- C88. With the recursion deeper than the number of files, the collected list holds exactly the
files reached from the main file over imports, also when imports form cycles. -/
theorem C88_collect (g : Nat → List Nat) (files : List Nat) (hg : ∀ x ∈ files, ∀ y ∈ g x, y ∈ files) (main : Nat)
    (hm : main ∈ files) (depth : Nat) (hd : files.length < depth) (x : Nat) :
    x ∈ collect g depth main ↔ Reach g main x := by
  unfold collect
  have hi : Inv g main { imports := [main], done := [] } :=
    ⟨by intro y hy; simp at hy; subst hy; exact .refl _, by intro y hy; cases hy⟩
  have hinv := collectRec_inv depth _ main hi (.refl main)
  have hp : pending files { imports := [main], done := [] } < depth := by
    have : pending files { imports := [main], done := [] } ≤ files.length := List.length_filter_le _ _
    omega
  obtain ⟨h1, h2⟩ := collectRec_done g files hg depth _ main hm hp
  have hgr := collectRec_grows g depth { imports := [main], done := [] } main
  constructor
  · exact hinv.sound x
  · intro hr
    -- every collected file is extracted, so the list is closed under imports
    obtain ⟨suf, hsuf⟩ := hgr.imports
    have hall : ∀ y ∈ (collectRec g depth { imports := [main], done := [] } main).imports,
        y ∈ (collectRec g depth { imports := [main], done := [] } main).done := by
      intro y hy
      rw [← hsuf] at hy
      rcases List.mem_append.mp hy with hy | hy
      · simp at hy; subst hy; exact h1
      · apply h2
        rw [← hsuf, List.drop_left' rfl]
        exact hy
    have : ∀ a b, Reach g a b → a ∈ (collectRec g depth { imports := [main], done := [] } main).imports →
        b ∈ (collectRec g depth { imports := [main], done := [] } main).imports := by
      intro a b hab
      induction hab with
      | refl a => exact id
      | step hm _ ih => exact fun ha => ih (hinv.closed _ (hall _ ha) _ hm)
    refine this main x hr ?_
    rw [← hsuf]; simp

example := C88_collect (fun x => if x = 0 then [1, 2] else if x = 1 then [3] else []) [0, 1, 2, 3] (by decide +kernel) 0 (by decide +kernel) 5 (by decide +kernel) 3

/-- The files of a combined script, in order. -/
theorem combineAll_eq (data : Nat → Bytes) (l : List Nat) :
    ∃ order, (combineAll data l).inlined = order ∧ order.Nodup ∧ (∀ x, x ∈ order ↔ x ∈ l) ∧
      (combineAll data l).out = bs "\n" ++ (order.map data).flatten := by
  have key : ∀ (r : List Nat) (c : Combined), c.inlined.Nodup → c.out = bs "\n" ++ (c.inlined.map data).flatten →
      let c' := r.foldl (fun c f => c.add data f) c
      c'.inlined.Nodup ∧ (∀ x, x ∈ c'.inlined ↔ x ∈ c.inlined ∨ x ∈ r) ∧
        c'.out = bs "\n" ++ (c'.inlined.map data).flatten := by
    intro r
    induction r with
    | nil => intro c h1 h2; exact ⟨h1, by simp, h2⟩
    | cons f r ih =>
      intro c h1 h2
      rw [List.foldl_cons]
      by_cases hf : f ∈ c.inlined
      · have e : c.add data f = c := by unfold Combined.add; rw [if_pos hf]
        rw [e]
        obtain ⟨a, b, d⟩ := ih c h1 h2
        refine ⟨a, ?_, d⟩
        intro x
        rw [b x]
        constructor
        · rintro (h | h)
          · exact Or.inl h
          · exact Or.inr (by simp [h])
        · rintro (h | h)
          · exact Or.inl h
          · rcases List.mem_cons.mp h with rfl | h
            · exact Or.inl hf
            · exact Or.inr h
      · have e : c.add data f = { inlined := c.inlined ++ [f], out := c.out ++ data f } := by
          unfold Combined.add; rw [if_neg hf]
        rw [e]
        obtain ⟨a, b, d⟩ := ih { inlined := c.inlined ++ [f], out := c.out ++ data f }
          (by simp only [List.nodup_append]; exact ⟨h1, by simp, by intro a ha b hb; simp at hb; subst hb; intro h; subst h; exact hf ha⟩)
          (by simp [h2])
        refine ⟨a, ?_, d⟩
        intro x
        rw [b x]
        simp [or_assoc]
  obtain ⟨a, b, d⟩ := key l.reverse { inlined := [], out := bs "\n" } (by simp) (by simp)
  exact ⟨_, rfl, a, by intro x; rw [show (combineAll data l).inlined = _ from rfl]; simpa [combineAll] using b x, d⟩

/-- C88. The combined script is a line feed followed by the data of the files reached from the main
file, each exactly once. -/
theorem C88_once (g : Nat → List Nat) (files : List Nat) (hg : ∀ x ∈ files, ∀ y ∈ g x, y ∈ files) (main : Nat)
    (hm : main ∈ files) (depth : Nat) (hd : files.length < depth) (data : Nat → Bytes) :
    ∃ order : List Nat, order.Nodup ∧ (∀ x, x ∈ order ↔ Reach g main x) ∧
      (combineAll data (collect g depth main)).out = bs "\n" ++ (order.map data).flatten := by
  obtain ⟨order, _, h1, h2, h3⟩ := combineAll_eq data (collect g depth main)
  exact ⟨order, h1, fun x => (h2 x).trans (C88_collect g files hg main hm depth hd x), h3⟩

/-- Main imports `a` and `b`, `a` imports `c`, and `b` imports `a` as well. -/
def diamond (x : Nat) : List Nat :=
  if x = 0 then [1, 2] else if x = 1 then [3] else if x = 2 then [1] else []

example : ∀ x ∈ [0, 1, 2, 3], ∀ y ∈ diamond x, y ∈ [0, 1, 2, 3] := by decide

/-- C208 fails: a module that is imported twice can be placed before a module that it imports. Here
module 1 imports module 3 and stands before it. -/
theorem C208_order_violated (depth : Nat) (hd : 4 < depth) (data : Nat → Bytes) :
    3 ∈ diamond 1 ∧ (combineAll data (collect diamond depth 0)).inlined = [1, 3, 2, 0] := by
  refine ⟨by decide, ?_⟩
  obtain ⟨d, rfl⟩ : ∃ d, depth = d + 5 := ⟨depth - 5, by omega⟩
  have : collect diamond (d + 5) 0 = [0, 1, 2, 3, 1] := by
    cases d <;> rfl
  rw [this]
  rfl

example := C208_order_violated 5 (by decide +kernel) (fun n => [BitVec.ofNat 8 n])

/-! ### Order -/

/-- The imports of every extracted file were collected behind the file. -/
def Behind (g : Nat → List Nat) (s : Collect) : Prop :=
  ∀ x ∈ s.done, ∃ a b, s.imports = a ++ b ∧ x ∈ a ∧ ∀ y ∈ g x, y ∈ b

theorem behind_extract {g : Nat → List Nat} {s : Collect} {f : Nat} (h : Behind g s) (hf : f ∈ s.imports) :
    Behind g (s.extract g f) := by
  unfold Collect.extract
  split
  · exact h
  · intro x hx
    rcases List.mem_cons.mp hx with rfl | hx
    · exact ⟨s.imports, g x, rfl, hf, fun y hy => hy⟩
    · obtain ⟨a, b, e, ha, hb⟩ := h x hx
      exact ⟨a, b ++ g f, by simp [e], ha, fun y hy => List.mem_append_left _ (hb y hy)⟩

theorem behind_collectRec {g : Nat → List Nat} (n : Nat) (s : Collect) (f : Nat) (h : Behind g s) (hf : f ∈ s.imports) :
    Behind g (collectRec g n s f) := by
  induction n generalizing s f with
  | zero => exact h
  | succ n ih =>
    rw [collectRec]
    have h1 := behind_extract h hf
    have hl : ∀ x ∈ (s.extract g f).imports.drop s.imports.length, x ∈ (s.extract g f).imports :=
      fun x hx => List.mem_of_mem_drop hx
    revert h1 hl
    generalize (s.extract g f).imports.drop s.imports.length = l
    generalize s.extract g f = t
    induction l generalizing t with
    | nil => intro h1 _; exact h1
    | cons x l ihl =>
      intro h1 hl
      have hgr := collectRec_grows g n t x
      exact ihl _ (ih t x h1 (hl x (by simp))) fun y hy => hgr.imports.subset (hl y (by simp [hy]))

theorem combine_nodup (data : Nat → Bytes) (l : List Nat) (h : l.Nodup) : (combineAll data l).inlined = l.reverse := by
  have key : ∀ (r : List Nat) (c : Combined), r.Nodup → (∀ x ∈ r, x ∉ c.inlined) →
      (r.foldl (fun c f => c.add data f) c).inlined = c.inlined ++ r := by
    intro r
    induction r with
    | nil => intro c _ _; simp
    | cons f r ih =>
      intro c hn hx
      obtain ⟨hn1, hn2⟩ := List.nodup_cons.mp hn
      rw [List.foldl_cons]
      have e : c.add data f = { inlined := c.inlined ++ [f], out := c.out ++ data f } := by
        unfold Combined.add; rw [if_neg (hx f (by simp))]
      rw [e, ih _ hn2]
      · simp
      · intro x hxr hmem
        rcases List.mem_append.mp hmem with hmem | hmem
        · exact hx x (by simp [hxr]) hmem
        · simp at hmem; subst hmem; exact hn1 hxr
  have := key l.reverse { inlined := [], out := bs "\n" } ((List.reverse_perm l).nodup_iff.mpr h) (by simp)
  simpa [combineAll] using this

/-- C208, the part about the order that holds: when no module is collected twice, every module stands
after all modules that it imports.
Missing: modules that are imported twice, scripts that begin with an import, and the recursive
inliner (refuted: `C208_order_exact_violated`, `C208_first_line_violated`, `C208_order_violated`
and others). -/
theorem C208_order_partial (g : Nat → List Nat) (files : List Nat) (hg : ∀ x ∈ files, ∀ y ∈ g x, y ∈ files) (main : Nat)
    (hm : main ∈ files) (depth : Nat) (hd : files.length < depth) (data : Nat → Bytes)
    (hnd : (collect g depth main).Nodup) (x y : Nat) (hx : Reach g main x) (hy : y ∈ g x) :
    ∃ p q r, (combineAll data (collect g depth main)).inlined = p ++ y :: (q ++ x :: r) := by
  have hmem := (C88_collect g files hg main hm depth hd x).mpr hx
  rw [combine_nodup data _ hnd]
  unfold collect at hmem ⊢
  have hp : pending files { imports := [main], done := [] } < depth := by
    have : pending files { imports := [main], done := [] } ≤ files.length := List.length_filter_le _ _
    omega
  obtain ⟨h1, h2⟩ := collectRec_done g files hg depth _ main hm hp
  have hgr := collectRec_grows g depth { imports := [main], done := [] } main
  obtain ⟨suf, hsuf⟩ := hgr.imports
  have hdone : x ∈ (collectRec g depth { imports := [main], done := [] } main).done := by
    rw [← hsuf] at hmem
    rcases List.mem_append.mp hmem with h | h
    · simp at h; subst h; exact h1
    · apply h2
      rw [← hsuf, List.drop_left' rfl]
      exact h
  have hb := behind_collectRec (g := g) depth { imports := [main], done := [] } main (by intro z hz; cases hz) (by simp)
  obtain ⟨a, b, e, ha, hb'⟩ := hb x hdone
  obtain ⟨a1, a2, rfl⟩ := List.append_of_mem ha
  obtain ⟨b1, b2, rfl⟩ := List.append_of_mem (hb' y hy)
  refine ⟨b2.reverse, b1.reverse ++ a2.reverse, a1.reverse, ?_⟩
  rw [e]
  simp

/-- A tree of imports meets the hypotheses. -/
example : (collect (fun x => if x = 0 then [1, 2] else if x = 1 then [3] else []) 5 0) = [0, 1, 2, 3] := by
  decide +kernel

/-- C208 fails for the recursive inliner of a single script: it never adds an import, whatever the
script imports. -/
theorem C208_recursive_violated (data : Nat → Bytes) (inlined : List Nat) (des : Bytes) (src : Nat)
    (h : src ∉ inlined) :
    addJSRecursively data inlined des src = (inlined ++ [src], des ++ data src) := by
  unfold addJSRecursively
  rw [if_neg h]
  rfl

example := C208_recursive_violated (fun n => [BitVec.ofNat 8 n]) [1, 2] [1, 2] 3 (by decide +kernel)

/-- C88. Adding a script twice adds it once. -/
theorem C88_addJS_once (data : Nat → Bytes) (inlined : List Nat) (des : Bytes) (src : Nat) :
    let r := addJS data inlined des src
    addJS data r.1 r.2 src = r := by
  simp only
  unfold addJS
  by_cases h : src ∈ inlined
  · rw [if_pos h, if_pos h]
  · rw [if_neg h, if_pos (by simp)]

/-! ## C89: mixing -/

/-- C89. A page gets the style sheet as a style element at its end. -/
theorem C89_css_html (html css : Bytes) : mixCSSToHTML html css = html ++ bs "\n<style>" ++ css ++ bs "</style>" ∧
    html <+: mixCSSToHTML html css ∧ css <:+: mixCSSToHTML html css := by
  refine ⟨rfl, ⟨bs "\n<style>" ++ css ++ bs "</style>", by simp [mixCSSToHTML]⟩,
    ⟨html ++ bs "\n<style>", bs "</style>", rfl⟩⟩

theorem cssMark_unique : EndsUniquely (bs "CSS: '") ∧ EndsUniquely (bs "CSS = '") :=
  ⟨⟨bs "CSS: ", ch '\'', by decide, by decide⟩, ⟨bs "CSS = ", ch '\'', by decide, by decide⟩⟩

/-- C89. The minified style is inserted right after the first `CSS: '`, or, when the script has none,
after the first `CSS = '`; a script with neither is unchanged. -/
theorem C89_css_js (minify : Bytes → Option Bytes) (css mcss a b : Bytes) (hmin : minify css = some mcss) :
    (¬ bs "CSS: '" <:+: a → mixCSSToJS minify (a ++ (bs "CSS: '" ++ b)) css = some (a ++ (bs "CSS: '" ++ (mcss ++ b)))) ∧
    (¬ bs "CSS = '" <:+: a → ¬ bs "CSS: '" <:+: a ++ (bs "CSS = '" ++ b) →
      mixCSSToJS minify (a ++ (bs "CSS = '" ++ b)) css = some (a ++ (bs "CSS = '" ++ (mcss ++ b)))) ∧
    (¬ bs "CSS: '" <:+: a → ¬ bs "CSS = '" <:+: a → mixCSSToJS minify a css = some a) := by
  have hrep : ∀ m new : Bytes, EndsUniquely m → ¬ m <:+: a →
      replaceFirst (a ++ (m ++ b)) m new = a ++ (new ++ b) := by
    intro m new hm ha
    unfold replaceFirst
    rw [indexOf_first m hm a b ha]
    simp only
    rw [List.take_left' rfl, ← List.append_assoc a m b, List.drop_left' (by simp)]
    simp
  refine ⟨?_, ?_, ?_⟩
  · intro ha
    unfold mixCSSToJS
    rw [hmin]
    simp only
    rw [indexOf_first _ cssMark_unique.1 a b ha]
    simp only
    rw [hrep _ _ cssMark_unique.1 ha, List.append_assoc]
  · intro ha hn
    unfold mixCSSToJS
    rw [hmin]
    simp only
    rw [(indexOf_nil_iff _ _).mpr hn]
    simp only
    rw [hrep _ _ cssMark_unique.2 ha, List.append_assoc]
  · intro h1 h2
    unfold mixCSSToJS
    rw [hmin]
    simp only
    rw [(indexOf_nil_iff _ _).mpr h1]
    simp only
    unfold replaceFirst
    rw [(indexOf_nil_iff _ _).mpr h2]

example : mixCSSToJS some (bs "x = { CSS: '' }") (bs "p{}") = some (bs "x = { CSS: 'p{}' }") := by decide +kernel

theorem htmlSlot_unique : EndsUniquely (bs "HTML: (") := ⟨bs "HTML: ", ch '(', by decide, by decide⟩

/-- C89. The minified page is inserted right after the first grave accent behind the first `HTML: (`. -/
theorem C89_html_js (minify : Bytes → Option Bytes) (html mhtml a b c : Bytes) (hmin : minify html = some mhtml)
    (ha : ¬ bs "HTML: (" <:+: a) (hb : ch '`' ∉ b) :
    mixHTMLToJS minify (a ++ (bs "HTML: (" ++ (b ++ ch '`' :: c))) html =
      some (a ++ (bs "HTML: (" ++ (b ++ ch '`' :: (mhtml ++ c)))) := by
  unfold mixHTMLToJS
  rw [hmin]
  simp only
  rw [indexOf_first _ htmlSlot_unique a _ ha]
  simp only
  unfold insertAt
  have hd : (a ++ (bs "HTML: (" ++ (b ++ ch '`' :: c))).drop a.length = (bs "HTML: (" ++ b) ++ ch '`' :: c := by
    rw [List.drop_left' rfl, List.append_assoc]
  rw [hd, indexByte_append _ c _ (by simp only [List.mem_append, not_or]; exact ⟨by decide, hb⟩)]
  simp only
  have e : a ++ (bs "HTML: (" ++ (b ++ ch '`' :: c)) = (a ++ (bs "HTML: (" ++ b) ++ [ch '`']) ++ c := by simp
  have hl : (bs "HTML: (" ++ b).length + a.length + 1 = (a ++ (bs "HTML: (" ++ b) ++ [ch '`']).length := by
    simp; omega
  rw [e, List.take_left' hl.symm, List.drop_left' hl.symm]
  simp

example := C89_html_js some (bs "<a>") (bs "<a>") (bs "x = {") (bs "y) => ") (bs "</a>`}") rfl (by decide +kernel) (by decide +kernel)

/-- C209 fails: without a grave accent the page lands in front of the slot, and a script without a slot
is lost, without an error. -/
theorem C209_html_js_violated (minify : Bytes → Option Bytes) (html mhtml a b : Bytes) (hmin : minify html = some mhtml) :
    (¬ bs "HTML: (" <:+: a → ch '`' ∉ b →
      mixHTMLToJS minify (a ++ (bs "HTML: (" ++ b)) html = some (a ++ (mhtml ++ (bs "HTML: (" ++ b)))) ∧
    (¬ bs "HTML: (" <:+: a → ¬ bs "HTML = (" <:+: a → mixHTMLToJS minify a html = some []) := by
  constructor
  · intro ha hb
    unfold mixHTMLToJS
    rw [hmin]
    simp only
    rw [indexOf_first _ htmlSlot_unique a _ ha]
    simp only
    unfold insertAt
    rw [List.drop_left' rfl, (indexByte_none_iff _ _).mpr (by simp only [List.mem_append, not_or]; exact ⟨by decide, hb⟩)]
    simp only
    rw [List.take_left' rfl, List.drop_left' rfl, List.append_assoc]
  · intro h1 h2
    unfold mixHTMLToJS
    rw [hmin]
    simp only
    rw [(indexOf_nil_iff _ _).mpr h1]
    simp only
    rw [(indexOf_nil_iff _ _).mpr h2]

example : mixHTMLToJS some (bs "x = {" ++ (bs "HTML: (" ++ bs ") => ''}")) (bs "<a>") = some (bs "x = {" ++ (bs "<a>" ++ (bs "HTML: (" ++ bs ") => ''}"))) ∧
    mixHTMLToJS some (bs "x = {}") (bs "<a>") = some [] :=
  ⟨(C209_html_js_violated some (bs "<a>") (bs "<a>") (bs "x = {") (bs ") => ''}") rfl).1 (by decide +kernel) (by decide +kernel),
    (C209_html_js_violated some (bs "<a>") (bs "<a>") (bs "x = {}") [] rfl).2 (by decide +kernel) (by decide +kernel)⟩

/-- C209 fails: the page that belongs to a script never reaches the combined script. -/
theorem C209_html_dropped_violated (minify : Bytes → Option Bytes) (js : Bytes) (css : Option Bytes) (html : Option Bytes)
    (text : List Bytes) : localeAndMix minify js css html text = localeAndMix minify js css none text := rfl

/-- C209. What does reach it is the localised script with its style.
Missing: that the page is part of it (refuted: `C209_html_template_violated`,
`C209_html_js_violated`, `C209_html_dropped_violated`). -/
theorem C209_locale_partial (minify : Bytes → Option Bytes) (js css mixed : Bytes) (html : Option Bytes) (text : List Bytes)
    (h : mixCSSToJS minify js css = some mixed) :
    localeAndMix minify js (some css) html text = localiseJS mixed text ∧
    localeAndMix minify js none html text = localiseJS js text := by
  unfold localeAndMix
  simp [h]

example := C209_locale_partial some (bs "x = { CSS: '' }") (bs "p{}") (bs "x = { CSS: 'p{}' }") (some (bs "<a>")) [bs "t"] (by decide +kernel)

end Memar.Www
