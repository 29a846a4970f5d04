import Verif.Www.Props

/-!
# C163: the files of an application in several languages, and reloading them

The texts of a localize file are a map from language to list of texts; Go iterates over it in any order, which is the order of the list
here. Reading the localize file (`encoding/json`) is not modelled: a file is given by the texts it holds.
-/

namespace Memar.Www
open Memar Decimal

/-! ## Model -/

/-- www/html.go:99 `localize`: the languages in the order of iteration, each with its texts -/
abbrev Texts := List (Bytes × List Bytes)

/-- www/html.go:64-70 `localizeHTMLFile` (`loc` = `localiseHTML html`) and www/js.go:136-142 `localizeJSFile` (`loc` = `localiseJS js`): a panic for
one language is a panic of the call. -/
def localiseAll (loc : List Bytes → Option Bytes) : Texts → Option (List (Bytes × Bytes))
  | [] => some []
  | (lang, text) :: r => (loc text).bind fun d => (localiseAll loc r).map ((lang, d) :: ·)

/-- What www/js.go:91-134 `localeAndMixJSFile` finds beside a script. `htmls` are the page file, if there is one, and the templates. -/
structure Script where
  js : Bytes
  json : Option Texts
  css : Option Bytes
  htmls : List Bytes

/-- www/js.go:91-134 `localeAndMixJSFile`. Without a localize file it answers a nil map in developer mode, and panics otherwise (line 110).
The pages and the templates are localised and the result is not used (lines 120 and 128); mixing them in does not panic (`insertAt`). -/
def localeAndMixAll (dev : Bool) (minify : Bytes → Option Bytes) (s : Script) : Option (List (Bytes × Bytes)) :=
  match s.json with
  | none => if dev then some [] else none
  | some lj =>
    (localiseAll (fun text => localeAndMix minify s.js s.css none text) lj).bind fun mixed =>
      if s.htmls.all fun h => (localiseAll (localiseHTML h) lj).isSome then some mixed else none

/-- www/combine.go:23-25: the files that were added, and the main script of each language -/
structure Mains where
  inlined : List Nat := []
  scripts : List (Bytes × Bytes)

/-- www/combine.go:143-163 `addLocalized` and 165-168 `isInlined`: the script of every language of the application grows by the data of the file
in that language, or by nothing. -/
def Mains.add (mixed : Nat → Option (List (Bytes × Bytes))) (m : Mains) (f : Nat) : Option Mains :=
  if f ∈ m.inlined then some m
  else (mixed f).map fun d =>
    { inlined := m.inlined ++ [f], scripts := m.scripts.map fun (l : Bytes × Bytes) => (l.1, l.2 ++ (d.lookup l.1).getD []) }

/-- www/combine.go:112-114: a list of files in the order they are added -/
def Mains.addAll (mixed : Nat → Option (List (Bytes × Bytes))) : Mains → List Nat → Option Mains
  | m, [] => some m
  | m, f :: r => (m.add mixed f).bind fun m => m.addAll mixed r

/-- www/combine.go:104-110: every script starts with a line feed -/
def Mains.start (lj : Texts) : Mains := { scripts := lj.map fun (l : Bytes × List Bytes) => (l.1, bs "\n") }

/-- What a round of www/assets.go:33-45 `ReloadByCLI` does. -/
inductive Round where
  | updated
  | warned
  deriving DecidableEq, Repr

/-- www/assets.go:39-45: one round on the word that was read -/
def round (word : Bytes) : Round := if word = bs "R" ∨ word = bs "r" then .updated else .warned

/-- www/assets.go:33-45 `ReloadByCLI`, the first `n` rounds when the lines of the input are `words` (each one word); after them
`fmt.Scanln` answers at once and leaves the word empty. -/
def rounds : Nat → List Bytes → List Round
  | 0, _ => []
  | n + 1, [] => round [] :: rounds n []
  | n + 1, w :: r => round w :: rounds n r

/-- www/assets.go:23-31 `Init`: `LogFatal` ends the program when a directory is not there (`none`), otherwise the assets are made once. -/
def assetsInit (guiExists mainHTMLExists : Bool) : Option Nat := if guiExists ∧ mainHTMLExists then some 1 else none

/-! ## Properties -/

theorem localiseAll_eq (loc : List Bytes → Option Bytes) (lj : Texts) :
    (∀ out, localiseAll loc lj = some out ↔ (∀ l ∈ lj, (loc l.2).isSome) ∧ out = lj.map fun l => (l.1, (loc l.2).getD [])) := by
  induction lj with
  | nil =>
    intro out
    constructor
    · intro h; cases h; exact ⟨fun l hl => (by cases hl), rfl⟩
    · rintro ⟨_, h⟩; rw [h]; rfl
  | cons l r ih =>
    intro out
    obtain ⟨lang, text⟩ := l
    simp only [localiseAll, Option.bind_eq_some_iff, Option.map_eq_some_iff]
    constructor
    · rintro ⟨d, hd, o, ho, rfl⟩
      obtain ⟨h1, h2⟩ := (ih o).1 ho
      refine ⟨?_, ?_⟩
      · intro x hx
        rcases List.mem_cons.mp hx with rfl | hx
        · simp [hd]
        · exact h1 x hx
      · simp [hd, h2]
    · rintro ⟨h1, h2⟩
      have := h1 _ (List.mem_cons_self ..)
      obtain ⟨d, hd⟩ := Option.isSome_iff_exists.mp this
      refine ⟨d, hd, _, (ih _).2 ⟨fun x hx => h1 x (List.mem_cons_of_mem _ hx), rfl⟩, ?_⟩
      simp [h2, hd]

/-- **C163**: a page with placeholders, localised for all languages, holds for each language, and for no other, the page with the texts of that
language filled in; whichever order the languages are gone through, the outcome is the same. -/
theorem C163_all_languages (p : Page) (lj lj' : Texts) (hp : lj.Perm lj') (h : ∀ l ∈ lj, p.Ok jsMark l.2) :
    ∃ out out', localiseAll (localiseJS (p.source jsMark [])) lj = some out ∧ localiseAll (localiseJS (p.source jsMark [])) lj' = some out' ∧
      out.Perm out' ∧ out.map (·.1) = lj.map (·.1) ∧ ∀ lang data, (lang, data) ∈ out ↔ ∃ text, (lang, text) ∈ lj ∧ data = p.filled text := by
  have hf : ∀ l ∈ lj, localiseJS (p.source jsMark []) l.2 = some (p.filled l.2) := fun l hl => C49_js p l.2 (h l hl)
  have hf' : ∀ l ∈ lj', localiseJS (p.source jsMark []) l.2 = some (p.filled l.2) := fun l hl => hf l (hp.mem_iff.mpr hl)
  have e : lj.map (fun l => (l.1, (localiseJS (p.source jsMark []) l.2).getD [])) = lj.map fun l => (l.1, p.filled l.2) :=
    List.map_congr_left fun l hl => by rw [hf l hl]; rfl
  have e' : lj'.map (fun l => (l.1, (localiseJS (p.source jsMark []) l.2).getD [])) = lj'.map fun l => (l.1, p.filled l.2) :=
    List.map_congr_left fun l hl => by rw [hf' l hl]; rfl
  refine ⟨_, _, (localiseAll_eq _ lj _).2 ⟨fun l hl => by rw [hf l hl]; rfl, rfl⟩,
    (localiseAll_eq _ lj' _).2 ⟨fun l hl => by rw [hf' l hl]; rfl, rfl⟩, ?_, ?_, ?_⟩
  · rw [e, e']; exact hp.map _
  · rw [e]; simp
  · intro lang data
    rw [e]
    simp only [List.mem_map, Prod.mk.injEq]
    constructor
    · rintro ⟨l, hl, rfl, rfl⟩; exact ⟨l.2, hl, rfl⟩
    · rintro ⟨t, ht, rfl⟩; exact ⟨_, ht, rfl, rfl⟩

/-- Case: two languages. -/
example : localiseAll (localiseJS (bs "a(LocaleText[0])")) [(bs "en", [bs "Hi"]), (bs "fa", [bs "Salam"])] =
    some [(bs "en", bs "a(Hi)"), (bs "fa", bs "a(Salam)")] := by decide +kernel

/-- **C245** violated when one language has too few texts: a placeholder that one language has no text for panics, and nothing is made for any
language. -/
theorem C245_short_language_violated (lj lj' : Texts) (lang : Bytes) (text : List Bytes) (first rest : Bytes) (k : Nat)
    (hf : ¬ jsMark <:+: first) (hk : k < 256) (ht : text.length ≤ k) :
    localiseAll (localiseJS (first ++ (jsMark ++ (decDigits k ++ ch ']' :: rest)))) (lj ++ (lang, text) :: lj') = none := by
  have h0 : localiseJS (first ++ (jsMark ++ (decDigits k ++ ch ']' :: rest))) text = none :=
    (C197_panic_violated jsMark jsMark_unique (by decide) text first rest k hf []).1 hk ht
  rw [Option.eq_none_iff_forall_ne_some]
  intro out ho
  have := ((localiseAll_eq _ _ _).1 ho).1 (lang, text) (by simp)
  rw [h0] at this
  cases this

/-- Case: the second language has one text, the page uses two. -/
example : localiseAll (localiseJS (bs "LocaleText[0]LocaleText[1]")) [(bs "en", [bs "a", bs "b"]), (bs "fa", [bs "c"])] = none := by
  decide +kernel

theorem Mains.addAll_spec (mixed : Nat → Option (List (Bytes × Bytes))) (fs : List Nat) (m : Mains) (l : Bytes) (c : Combined)
    (hm : ∀ f ∈ fs, (mixed f).isSome) (hi : m.inlined = c.inlined) (hs : (l, c.out) ∈ m.scripts) :
    ∃ m', m.addAll mixed fs = some m' ∧
      (l, (fs.foldl (fun (c : Combined) f => c.add (fun f => (((mixed f).getD []).lookup l).getD []) f) c).out) ∈ m'.scripts ∧
      m'.scripts.map (·.1) = m.scripts.map (·.1) := by
  induction fs generalizing m c with
  | nil => exact ⟨m, rfl, hs, rfl⟩
  | cons f r ih =>
    obtain ⟨d, hd⟩ := Option.isSome_iff_exists.mp (hm f (List.mem_cons_self ..))
    by_cases hf : f ∈ m.inlined
    · obtain ⟨m', h1, h2, h3⟩ := ih m c (fun x hx => hm x (List.mem_cons_of_mem _ hx)) hi hs
      refine ⟨m', ?_, ?_, h3⟩
      · rw [Mains.addAll, Mains.add, if_pos hf]; exact h1
      · rw [List.foldl_cons, Combined.add, if_pos (hi ▸ hf)]; exact h2
    · obtain ⟨m', h1, h2, h3⟩ := ih
        { inlined := m.inlined ++ [f], scripts := m.scripts.map fun (l : Bytes × Bytes) => (l.1, l.2 ++ (d.lookup l.1).getD []) }
        { inlined := c.inlined ++ [f], out := c.out ++ (d.lookup l).getD [] }
        (fun x hx => hm x (List.mem_cons_of_mem _ hx)) (by simp [hi])
        (by simp only [List.mem_map]; exact ⟨_, hs, rfl⟩)
      refine ⟨m', ?_, ?_, ?_⟩
      · rw [Mains.addAll, Mains.add, if_neg hf, hd]; exact h1
      · rw [List.foldl_cons, Combined.add, if_neg (hi ▸ hf), hd]; exact h2
      · rw [h3]; simp

/-- **C163**: the main scripts of all languages are made together, each exactly as if its language were the only one: for every language of the
application the script is the line feed followed by what each collected file holds in that language, each file once. -/
theorem C163_each_language (mixed : Nat → Option (List (Bytes × Bytes))) (imports : List Nat) (hm : ∀ f ∈ imports, (mixed f).isSome)
    (lj : Texts) :
    ∃ m, (Mains.start lj).addAll mixed imports.reverse = some m ∧ (lj ≠ [] → m.scripts.map (·.1) = lj.map (·.1)) ∧
      ∀ l ∈ lj.map (·.1), (l, (combineAll (fun f => (((mixed f).getD []).lookup l).getD []) imports).out) ∈ m.scripts := by
  have key : ∀ l ∈ lj.map (·.1), ∃ m', (Mains.start lj).addAll mixed imports.reverse = some m' ∧
      (l, (combineAll (fun f => (((mixed f).getD []).lookup l).getD []) imports).out) ∈ m'.scripts ∧
      m'.scripts.map (·.1) = (Mains.start lj).scripts.map (·.1) := by
    intro l hl
    exact Mains.addAll_spec mixed imports.reverse (Mains.start lj) l { inlined := [], out := bs "\n" }
      (fun f hf => hm f (by simpa using hf)) rfl (by
        obtain ⟨x, hx, rfl⟩ := List.mem_map.mp hl
        exact List.mem_map.mpr ⟨x, hx, rfl⟩)
  have ex : ∃ m, (Mains.start lj).addAll mixed imports.reverse = some m := by
    have : ∀ (fs : List Nat) (m : Mains), (∀ f ∈ fs, (mixed f).isSome) → ∃ m', m.addAll mixed fs = some m' := by
      intro fs
      induction fs with
      | nil => intro m _; exact ⟨m, rfl⟩
      | cons f r ih =>
        intro m h
        obtain ⟨d, hd⟩ := Option.isSome_iff_exists.mp (h f (List.mem_cons_self ..))
        rw [Mains.addAll, Mains.add]
        by_cases hf : f ∈ m.inlined
        · rw [if_pos hf]; exact ih _ (fun x hx => h x (List.mem_cons_of_mem _ hx))
        · rw [if_neg hf, hd]; exact ih _ (fun x hx => h x (List.mem_cons_of_mem _ hx))
    exact this _ _ (fun f hf => hm f (by simpa using hf))
  obtain ⟨m, em⟩ := ex
  refine ⟨m, em, fun hne => ?_, fun l hl => ?_⟩
  · obtain ⟨x, hx⟩ := List.exists_mem_of_ne_nil lj hne
    obtain ⟨m', h1, _, h3⟩ := key x.1 (List.mem_map.mpr ⟨x, hx, rfl⟩)
    rw [em] at h1; cases h1
    rw [h3]; simp [Mains.start]
  · obtain ⟨m', h1, h2, _⟩ := key l hl
    rw [em] at h1; cases h1
    exact h2

/-- Case: two files, the second one without a text in the second language. -/
example : let mixed : Nat → Option (List (Bytes × Bytes)) := fun f =>
      if f = 0 then some [(bs "en", bs "a;"), (bs "fa", bs "b;")] else some [(bs "en", bs "c;")]
    ((Mains.start [(bs "en", []), (bs "fa", [])]).addAll mixed [1, 0, 1]).map (·.scripts) =
      some [(bs "en", bs "\nc;a;"), (bs "fa", bs "\nb;")] := by decide +kernel

/-- **C245** violated for files without texts in a language of the application: the log says that the plain file is used; nothing of the file is, in
developer mode for files without a localize file and in both modes for a language the localize file does not have. -/
theorem C245_plain_file_violated (dev : Bool) (minify : Bytes → Option Bytes) (s : Script) (m m' : Mains) (f : Nat) (hf : f ∉ m.inlined)
    (l : Bytes) (hno : ∀ lj, s.json = some lj → l ∉ lj.map (·.1))
    (hadd : m.add (fun _ => localeAndMixAll dev minify s) f = some m') (x : Bytes) (hx : (l, x) ∈ m.scripts) : (l, x) ∈ m'.scripts := by
  rw [Mains.add, if_neg hf, Option.map_eq_some_iff] at hadd
  obtain ⟨d, hd, rfl⟩ := hadd
  refine List.mem_map.mpr ⟨_, hx, ?_⟩
  have : d.lookup l = none := by
    rw [List.lookup_eq_none_iff]
    intro p hp
    rw [localeAndMixAll] at hd
    cases hj : s.json with
    | none =>
      rw [hj] at hd
      cases dev
      · cases hd
      · cases hd; cases hp
    | some lj =>
      rw [hj] at hd
      simp only [Option.bind_eq_some_iff] at hd
      obtain ⟨out, ho, hd⟩ := hd
      split at hd
      · cases hd
        have e := ((localiseAll_eq _ _ _).1 ho).2
        rw [e] at hp
        obtain ⟨q, hq, rfl⟩ := List.mem_map.mp hp
        have := hno lj hj
        simp only [bne_iff_ne, ne_eq]
        intro he
        exact this (List.mem_map.mpr ⟨q, hq, he.symm⟩)
      · cases hd
  simp [this]

/-- Case: a plain script in developer mode. -/
example : let s : Script := { js := bs "x();", json := none, css := none, htmls := [] }
    ((Mains.start [(bs "en", [])]).add (fun _ => localeAndMixAll true some s) 7).map (·.scripts) = some [(bs "en", bs "\n")] := by
  decide +kernel

/-- **C245** violated in production: one script without a localize file makes the whole update panic. -/
theorem C245_no_texts_violated (minify : Bytes → Option Bytes) (scripts : Nat → Script) (imports : List Nat) (f : Nat) (hf : f ∈ imports)
    (hj : (scripts f).json = none) (lj : Texts) :
    (Mains.start lj).addAll (fun f => localeAndMixAll false minify (scripts f)) imports.reverse = none := by
  have : ∀ (fs : List Nat) (m : Mains), f ∈ fs → f ∉ m.inlined →
      m.addAll (fun f => localeAndMixAll false minify (scripts f)) fs = none := by
    intro fs
    induction fs with
    | nil => intro m h; cases h
    | cons g r ih =>
      intro m h hm
      rw [Mains.addAll, Mains.add]
      by_cases he : g = f
      · subst he
        rw [if_neg hm, show localeAndMixAll false minify (scripts g) = none by rw [localeAndMixAll, hj]; rfl]; rfl
      · have hr : f ∈ r := by
          rcases List.mem_cons.mp h with h | h
          · exact absurd h.symm he
          · exact h
        by_cases hg : g ∈ m.inlined
        · rw [if_pos hg]; exact ih m hr hm
        · rw [if_neg hg]
          cases localeAndMixAll false minify (scripts g) with
          | none => rfl
          | some d =>
            exact ih _ hr (by
              simp only [List.mem_append, List.mem_singleton, not_or]
              exact ⟨hm, fun h => he h.symm⟩)
  exact this _ _ (by simpa using hf) (by simp [Mains.start])

/-- Case: a single script without one. -/
example : localeAndMixAll false some { js := bs "x();", json := none, css := none, htmls := [] } = none := by decide +kernel

/-! ### reloading -/

/-- **C163**: the assets are made again exactly once for each line that is the letter R, in either case; every other line is answered by a warning, and
no line is passed over. -/
theorem C163_reload (words : List Bytes) :
    rounds words.length words = words.map (fun w => if w = [82#8] ∨ w = [114#8] then .updated else .warned) := by
  induction words with
  | nil => rfl
  | cons w r ih =>
    rw [List.length_cons, rounds, ih]
    rfl

example : rounds 3 [bs "R", bs "x", bs "r"] = [.updated, .warned, .updated] := by decide +kernel

/-- **C245** violated at the end of the input: the loop does not end; every further round writes a warning at once. -/
theorem C245_reload_end_violated (words : List Bytes) (n : Nat) :
    rounds (words.length + n) words = rounds words.length words ++ List.replicate n .warned := by
  induction words with
  | nil =>
    simp only [List.length_nil, Nat.zero_add]
    induction n with
    | zero => rfl
    | succ n ih =>
      show round [] :: rounds n [] = _
      rw [ih, show round [] = .warned by decide +kernel]
      rfl
  | cons w r ih =>
    rw [List.length_cons, show r.length + 1 + n = (r.length + n) + 1 by omega, rounds, rounds, ih]
    rfl

/-- **C163**: the assets are made once at the start exactly when both directories are there; otherwise the program ends. -/
theorem C163_init (g h : Bool) : assetsInit g h = some 1 ↔ g = true ∧ h = true := by
  cases g <;> cases h <;> decide

end Memar.Www
