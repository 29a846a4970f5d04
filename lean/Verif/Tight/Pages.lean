import Verif.Gui.Props
import Verif.Www.Props
import Verif.Os.Sort
import Verif.Crypto.Props
import Verif.Identifier.TextProps

/-!
# Further theorems about generated pages, sorting of files, ciphers and identifiers
-/

namespace Memar.Gui
open Memar Decimal Www

/-! ## the name made of words -/

/-- A byte that ends a word: an ASCII byte that is no letter, no digit and no underscore. -/
def Separator (c : Byte) : Prop :=
  c.toNat < 128 ∧ ¬ (97 ≤ c.toNat ∧ c.toNat ≤ 122) ∧ ¬ (65 ≤ c.toNat ∧ c.toNat ≤ 90) ∧ ¬ (48 ≤ c.toNat ∧ c.toNat ≤ 57) ∧ c.toNat ≠ 95

/-- A word with its first letter in upper case. -/
def capital : Bytes → Bytes
  | [] => []
  | b :: t => (if 97 ≤ b.toNat ∧ b.toNat ≤ 122 then BitVec.ofNat 8 (b.toNat - 32) else b) :: t

theorem wordByte_iff : ∀ c : Byte, wordByte c = true ↔ ¬ Separator c := by
  have : ∀ i : Fin 256, wordByte (BitVec.ofFin i) = true ↔ ¬ (i.val < 128 ∧ ¬ (97 ≤ i.val ∧ i.val ≤ 122) ∧ ¬ (65 ≤ i.val ∧ i.val ≤ 90) ∧
      ¬ (48 ≤ i.val ∧ i.val ≤ 57) ∧ i.val ≠ 95) := by decide +kernel
  exact fun c => this c.toFin

theorem upperByte_eq : ∀ b : Byte, upperByte b = if 97 ≤ b.toNat ∧ b.toNat ≤ 122 then BitVec.ofNat 8 (b.toNat - 32) else b := by
  have : ∀ i : Fin 256, upperByte (BitVec.ofFin i) = if 97 ≤ i.val ∧ i.val ≤ 122 then BitVec.ofNat 8 (i.val - 32) else BitVec.ofFin i := by
    decide +kernel
  exact fun c => this c.toFin

theorem titleFrom_word (w : Bytes) (hw : ∀ c ∈ w, ¬ Separator c) (p : Byte) (hp : ¬ Separator p) (r : Bytes) :
    ∃ q, ¬ Separator q ∧ titleFrom p (w ++ r) = w ++ titleFrom q r := by
  induction w generalizing p with
  | nil => exact ⟨p, hp, rfl⟩
  | cons b t ih =>
    obtain ⟨q, hq, e⟩ := ih (fun c hc => hw c (List.mem_cons_of_mem _ hc)) b (hw b (List.mem_cons_self ..))
    refine ⟨q, hq, ?_⟩
    rw [List.cons_append, titleFrom, if_pos ((wordByte_iff p).2 hp), e]
    rfl

theorem title_words (ws : List (Bytes × Byte)) (last : Bytes) (p : Byte) (hp : Separator p)
    (hw : ∀ w ∈ ws, w.1 ≠ [] ∧ (∀ c ∈ w.1, ¬ Separator c) ∧ Separator w.2) (hl : ∀ c ∈ last, ¬ Separator c) :
    titleFrom p (ws.flatMap (fun w => w.1 ++ [w.2]) ++ last) = ws.flatMap (fun w => capital w.1 ++ [w.2]) ++ capital last := by
  induction ws generalizing p with
  | nil =>
    simp only [List.flatMap_nil, List.nil_append]
    cases last with
    | nil => rfl
    | cons b t =>
      have hp' : ¬ wordByte p = true := fun h => (wordByte_iff p).1 h hp
      obtain ⟨q, _, e⟩ := titleFrom_word t (fun c hc => hl c (List.mem_cons_of_mem _ hc)) b (hl b (List.mem_cons_self ..)) []
      rw [List.append_nil] at e
      rw [titleFrom, if_neg hp', e, capital, upperByte_eq]
      simp [titleFrom]
  | cons w ws ih =>
    obtain ⟨hne, hc, hs⟩ := hw w (List.mem_cons_self ..)
    have hp' : ¬ wordByte p = true := fun h => (wordByte_iff p).1 h hp
    obtain ⟨v, sep⟩ := w
    cases v with
    | nil => exact absurd rfl hne
    | cons b t =>
      obtain ⟨q, hq, e⟩ := titleFrom_word t (fun c h => hc c (List.mem_cons_of_mem _ h)) b (hc b (List.mem_cons_self ..))
        (sep :: (ws.flatMap (fun w => w.1 ++ [w.2]) ++ last))
      have e2 := ih sep hs (fun w h => hw w (List.mem_cons_of_mem _ h))
      simp only [List.flatMap_cons, List.append_assoc, List.cons_append, List.nil_append]
      rw [titleFrom, if_neg hp', e, titleFrom, if_pos ((wordByte_iff q).2 hq), e2, capital, upperByte_eq]
      rfl

/-- **C148**: the default name is the scope's name with the first letter of every word in upper case: words are separated by any ASCII byte
but letters, digits and the underscore; hyphens become spaces, the other separators stay, and nothing else changes. -/
theorem C148_default_name (req : Request) (h0 : req.pageVarName = []) (ws : List (Bytes × Byte)) (last : Bytes)
    (hs : req.scopeName = ws.flatMap (fun w => w.1 ++ [w.2]) ++ last)
    (hw : ∀ w ∈ ws, w.1 ≠ [] ∧ (∀ c ∈ w.1, ¬ Separator c) ∧ Separator w.2) (hl : ∀ c ∈ last, ¬ Separator c) :
    (makeNewPage req).1.pageVarName =
      (ws.flatMap (fun w => capital w.1 ++ [w.2]) ++ capital last).map fun b => if b = ch '-' then ch ' ' else b := by
  unfold makeNewPage
  rw [if_pos h0]
  show replaceByte (title req.scopeName) (ch '-') (ch ' ') = _
  rw [hs, title, title_words ws last (ch ' ') (by unfold Separator; decide) hw hl]
  rfl

/-- Case: three words. -/
example : (makeNewPage ⟨bs "d", bs "user-profile:list_of9a", []⟩).1.pageVarName = bs "User Profile:List_of9a" := by decide +kernel

/-! ## the page with its texts -/

/-- The information block of a page, for what stands in its six places. -/
def info (f : Nat → Bytes) : Bytes :=
  bs "Info: {\n        Name: \"" ++ (f 0 ++ (bs "\",\n        ShortName: \"" ++ (f 1 ++ (bs "\",\n        Tagline: \"" ++ (f 2 ++
    (bs "\",\n        Slogan: \"" ++ (f 3 ++ (bs "\",\n        Description: \"" ++ (f 4 ++
    (bs "\",\n        Tags: [\"" ++ (f 5 ++ bs "\"]\n    },\n")))))))))))

/-- What follows the block in its piece of the template. -/
def infoRest : Bytes :=
  bs "    Robots: \"all\",\n    Related: [\"\", \"\"],\n    HTML: () => ``,\n    CSS: '',\n    Templates: {},\n    Options: {},\n\tacceptedConditions: {\n\t\t\"id\": \"\",\n\t\teditable: true,\n\t\toffset: 0,\n\t},\n\tactiveState: null,\n}\nApplication.RegisterPage(page"

theorem titleFrom_bracket (p : Byte) (s : Bytes) (h : ch '[' ∉ s) : ch '[' ∉ titleFrom p s := by
  have hu : ∀ b : Byte, upperByte b = ch '[' → b = ch '[' := by
    have : ∀ i : Fin 256, upperByte (BitVec.ofFin i) = ch '[' → BitVec.ofFin i = ch '[' := by decide +kernel
    exact fun b => this b.toFin
  induction s generalizing p with
  | nil => simp [titleFrom]
  | cons b t ih =>
    simp only [List.mem_cons, not_or] at h
    simp only [titleFrom, List.mem_cons, not_or]
    refine ⟨?_, ih b h.2⟩
    split
    · exact h.1
    · exact fun e => h.1 (hu b e.symm).symm

theorem nameOf_bracket (req : Request) (hs : ch '[' ∉ req.scopeName) (hv : ch '[' ∉ req.pageVarName) : ch '[' ∉ nameOf req := by
  unfold nameOf
  split
  · intro h
    obtain ⟨b, hb, e⟩ := List.mem_map.mp h
    split at e
    · exact absurd e (by decide)
    · subst e; exact titleFrom_bracket _ _ hs hb
  · exact hv

theorem mark_bracket (s : Bytes) (h : ch '[' ∉ s) : ¬ jsMark <:+: s := fun hi => h (hi.subset (by decide))

theorem mark_one_bracket (a b : Bytes) (ha : ch '[' ∉ a) (hb : ch '[' ∉ b) (hs : ¬ bs "LocaleText" <:+ a) : ¬ jsMark <:+: a ++ ch '[' :: b := by
  rintro ⟨u, v, e⟩
  have e1 : (u ++ bs "LocaleText") ++ ch '[' :: v = a ++ ch '[' :: b := by
    rw [← e, show jsMark = bs "LocaleText" ++ [ch '['] by decide]; simp
  have hu : ch '[' ∉ u ++ bs "LocaleText" := by
    intro hm
    have hc := congrArg (List.count (ch '[')) e1
    have h1 := List.count_pos_iff.mpr hm
    simp only [List.count_append, List.count_cons_self, List.count_eq_zero.mpr ha, List.count_eq_zero.mpr hb] at hc
    rw [List.count_append] at h1
    omega
  have : u ++ bs "LocaleText" = a := by
    have e2 := congrArg (List.takeWhile (· != ch '[')) e1
    rw [List.takeWhile_append_of_pos (by intro x hx; simp only [bne_iff_ne]; rintro rfl; exact hu hx),
      List.takeWhile_append_of_pos (by intro x hx; simp only [bne_iff_ne]; rintro rfl; exact ha hx)] at e2
    simpa using e2
  exact hs ⟨u, this⟩

/-- **C148**: a new page whose scope, domain and name have no bracket is ready for its localize file: its information block refers to the six texts, each by
its number and in this order, and once localised with the texts of a language (at least six; the new localize file has seven) it holds them
in those places, and everything else is as it was. -/
theorem C148_texts (req : Request) (hd : ch '[' ∉ req.domain) (hs : ch '[' ∉ req.scopeName) (hv : ch '[' ∉ req.pageVarName)
    (text : List Bytes) (ht : 6 ≤ text.length) :
    ∃ before after, (makeNewPage req).2.js = before ++ (info (fun i => bs "LocaleText[" ++ (decDigits i ++ bs "]")) ++ after) ∧
      localiseJS (makeNewPage req).2.js text = some (before ++ (info (fun i => (text[i]?).getD []) ++ after)) := by
  have hn := nameOf_bracket req hs hv
  obtain ⟨t0, t1, t2, t3, t4, t5, t6, t7, t8, t9, e, n0, n1, n2, n3, n4, n6, n7, n8, n9, e5⟩ :
      ∃ t0 t1 t2 t3 t4 t5 t6 t7 t8 t9 : Bytes, jsPageFile = [.text t0, .pageVarName, .text t1, .domain, .text t2, .scopeName,
        .text t3, .domain, .text t4, .scopeName, .text (bs "\",\n\t},\n    Icon: \""), .scopeName, .text t5, .pageVarName, .text t6, .pageVarName, .text t7, .pageVarName,
        .text t8, .pageVarName, .text t9] ∧ ch '[' ∉ t0 ∧ ch '[' ∉ t1 ∧ ch '[' ∉ t2 ∧ ch '[' ∉ t3 ∧ ch '[' ∉ t4 ∧
        ch '[' ∉ t6 ∧ ch '[' ∉ t7 ∧ ch '[' ∉ t8 ∧ ch '[' ∉ t9 ∧
        t5 = bs "\",\n    " ++ (info (fun i => bs "LocaleText[" ++ (decDigits i ++ bs "]")) ++ infoRest) := by
    refine ⟨_, _, _, _, _, _, _, _, _, _, rfl, ?_, ?_, ?_, ?_, ?_, ?_, ?_, ?_, ?_, ?_⟩ <;> decide +kernel
  have icon : ch '[' ∉ bs "\",\n\t},\n    Icon: \"" := by decide
  let before := t0 ++ (nameOf req ++ (t1 ++ (req.domain ++ (t2 ++ (req.scopeName ++ (t3 ++ (req.domain ++ (t4 ++ (req.scopeName ++
    (bs "\",\n\t},\n    Icon: \"" ++ (req.scopeName ++ bs "\",\n    ")))))))))))
  let tail := nameOf req ++ (t6 ++ (nameOf req ++ (t7 ++ (nameOf req ++ (t8 ++ (nameOf req ++ t9))))))
  have hb : ch '[' ∉ before := by
    simp only [before, List.mem_append, not_or]
    exact ⟨n0, hn, n1, hd, n2, hs, n3, hd, n4, hs, icon, hs, by decide⟩
  have htl : ch '[' ∉ tail := by
    simp only [tail, List.mem_append, not_or]
    exact ⟨hn, n6, hn, n7, hn, n8, hn, n9⟩
  have hjs : (makeNewPage req).2.js =
      before ++ (info (fun i => bs "LocaleText[" ++ (decDigits i ++ bs "]")) ++ (infoRest ++ tail)) := by
    rw [js_of, e]
    simp only [List.flatMap_cons, List.flatMap_nil, Piece.write, e5, before, tail, List.append_assoc, List.append_nil]
  refine ⟨before, infoRest ++ tail, hjs, ?_⟩
  let p : Page := ⟨before ++ bs "Info: {\n        Name: \"",
    [(0, bs "\",\n        ShortName: \""), (1, bs "\",\n        Tagline: \""), (2, bs "\",\n        Slogan: \""),
     (3, bs "\",\n        Description: \""), (4, bs "\",\n        Tags: [\""), (5, bs "\"]\n    },\n" ++ (infoRest ++ tail))]⟩
  have hsrc : p.source jsMark [] = (makeNewPage req).2.js := by
    rw [hjs]
    simp only [p, Page.source, info, jsMark, List.map_cons, List.map_nil, List.flatten_cons, List.flatten_nil, List.append_assoc,
      List.append_nil, List.nil_append, List.cons_append]
    simp only [show bs "]" = [ch ']'] from rfl, List.cons_append, List.nil_append]
  have hfill : p.filled text = before ++ (info (fun i => (text[i]?).getD []) ++ (infoRest ++ tail)) := by
    simp only [p, Page.filled, info, List.map_cons, List.map_nil, List.flatten_cons, List.flatten_nil, List.append_assoc,
      List.append_nil]
  have hlast : ¬ jsMark <:+: bs "\"]\n    },\n" ++ (infoRest ++ tail) := by
    obtain ⟨a, b, e3, ha, hb', hx⟩ : ∃ a b, bs "\"]\n    },\n" ++ infoRest = a ++ ch '[' :: b ∧ ch '[' ∉ a ∧ ch '[' ∉ b ∧
        ¬ bs "LocaleText" <:+ a := by
      refine ⟨bs "\"]\n    },\n    Robots: \"all\",\n    Related: ", (bs "\"]\n    },\n" ++ infoRest).drop 43, ?_, ?_, ?_, ?_⟩
      · decide +kernel
      · decide +kernel
      · decide +kernel
      · rw [List.suffix_iff_eq_drop]; decide +kernel
    rw [← List.append_assoc, e3, List.append_assoc, List.cons_append]
    exact mark_one_bracket a (b ++ tail) ha (by simp only [List.mem_append, not_or]; exact ⟨hb', htl⟩) hx
  rw [← hsrc, C49_js p text, hfill]
  refine ⟨mark_bracket _ ?_, ?_⟩
  · simp only [p, List.mem_append, not_or]; exact ⟨hb, by decide⟩
  · intro x hx
    simp only [p, List.mem_cons, List.not_mem_nil, or_false] at hx
    rcases hx with rfl | rfl | rfl | rfl | rfl | rfl
    · exact ⟨mark_bracket _ (by decide), by decide, by show 0 < _; omega⟩
    · exact ⟨mark_bracket _ (by decide), by decide, by show 1 < _; omega⟩
    · exact ⟨mark_bracket _ (by decide), by decide, by show 2 < _; omega⟩
    · exact ⟨mark_bracket _ (by decide), by decide, by show 3 < _; omega⟩
    · exact ⟨mark_one_bracket (bs "\",\n        Tags: ") (bs "\"") (by decide) (by decide)
        (by rw [List.suffix_iff_eq_drop]; decide +kernel), by decide, by show 4 < _; omega⟩
    · exact ⟨hlast, by show 5 < 256; decide, by show 5 < _; omega⟩

/-- The new localize file: two languages with seven empty texts each. -/
theorem C148_new_texts (req : Request) :
    (makeNewPage req).2.json = bs "{\n    \"en\": [\n" ++ ((List.replicate 6 (bs "        \"\",\n")).flatten ++
      (bs "        \"\"\n    ],\n    \"fa\": [\n" ++ ((List.replicate 6 (bs "        \"\",\n")).flatten ++ bs "        \"\"\n    ]\n}"))) := by
  show jsonPageFile = _
  decide +kernel

/-- Case: a page with its texts. -/
example : ∃ before after, localiseJS (makeNewPage ⟨bs "d.o", bs "order", []⟩).2.js [bs "a", bs "b", bs "c", bs "d", bs "e", bs "f"] =
    some (before ++ (bs "Info: {\n        Name: \"a\",\n        ShortName: \"b\",\n        Tagline: \"c\",\n        Slogan: \"d\",\n        Description: \"e\",\n        Tags: [\"f\"]\n    },\n" ++ after)) := by
  obtain ⟨b, a, _, h⟩ := C148_texts ⟨bs "d.o", bs "order", []⟩ (by decide) (by decide) (by decide)
    [bs "a", bs "b", bs "c", bs "d", bs "e", bs "f"] (by decide)
  have e : info (fun i => ([bs "a", bs "b", bs "c", bs "d", bs "e", bs "f"][i]?).getD []) = bs "Info: {\n        Name: \"a\",\n        ShortName: \"b\",\n        Tagline: \"c\",\n        Slogan: \"d\",\n        Description: \"e\",\n        Tags: [\"f\"]\n    },\n" := by
    decide +kernel
  exact ⟨b, a, by rw [h, e]⟩

end Memar.Gui

namespace Memar.Os
open Memar

/-- **C153**: files that were all changed at one time are in descending order too: then, and only then, the order asked for and the order
made are the same.
Missing: files that were changed at different times (refuted: `C153_order_violated`). -/
theorem C153_same_time_partial (sort : (FileInfo → FileInfo → Bool) → List FileInfo → List FileInfo)
    (hs : Sorts byModTimeLess (sort byModTimeLess)) (files : List FileInfo) :
    Descending (sortFilesDec sort files) ↔ ∀ f ∈ files, ∀ g ∈ files, f.modTime = g.modTime := by
  constructor
  · intro hd f hf g hg
    rcases Int.lt_trichotomy f.modTime g.modTime with h | h | h
    · exact absurd hd (C153_order_violated sort hs files f g hf hg h)
    · exact h
    · exact absurd hd (C153_order_violated sort hs files g f hg hf h)
  · intro h
    have hp := (hs files).1
    exact List.pairwise_iff_forall_sublist.mpr fun {a b} hab =>
      Int.le_of_eq (h b (hp.mem_iff.1 (hab.subset (by simp))) a (hp.mem_iff.1 (hab.subset (by simp))))

/-- Case: two files of one time. -/
example : Descending (sortFilesDec mergeSorted [⟨bs "a", 1⟩, ⟨bs "b", 1⟩]) :=
  (C153_same_time_partial mergeSorted mergeSorted_sorts _).2 (by decide)

end Memar.Os

namespace Memar.Crypto
open Memar

/-- **C150** violated for the round keys of AES-256: for every key all sixty words of both schedules are zero. -/
theorem C150_round_keys_violated (key : Bytes) :
    (newAES256 key).enc.length = 60 ∧ (newAES256 key).dec.length = 60 ∧ ∀ w ∈ (newAES256 key).enc ++ (newAES256 key).dec, w = 0 := by
  refine ⟨by simp [newAES256], by simp [newAES256], fun w hw => ?_⟩
  simp only [newAES256, List.mem_append, List.mem_replicate] at hw
  rcases hw with h | h <;> exact h.2

end Memar.Crypto

namespace Memar.Identifier
open Memar

/-- **C238** violated for versions 1 and 5: whatever they are made of, all sixteen bytes are zero, the nil identifier of RFC 4122. -/
theorem C238_nil_violated (a b : Bytes) :
    (Rfc4122.v1 a b).length = 16 ∧ (Rfc4122.v5 a b).length = 16 ∧ ∀ x ∈ Rfc4122.v1 a b ++ Rfc4122.v5 a b, x = 0 := by
  refine ⟨by simp [Rfc4122.v1], by simp [Rfc4122.v5], fun w hw => ?_⟩
  simp only [Rfc4122.v1, Rfc4122.v5, List.mem_append, List.mem_replicate] at hw
  rcases hw with h | h <;> exact h.2

end Memar.Identifier
