import Verif.Www.AssetsLemmas

/-!
# C133, C134: making the files that are served, and their compressed forms
-/

namespace Memar.Www.Assets
open Memar Memar.File Memar.Decimal

/-! ## Specification -/

namespace ASpec

/-- The file extensions of the encodings are proper ones, and not those of pages and scripts. -/
def EncsOk (E : Env) : Prop := ∀ e f, some (e, f) ∈ E.encs → ch '.' ∉ e ∧ e ≠ bs "js" ∧ e ≠ bs "html" ∧ e ≠ bs "css"

/-- The script of a language before it is named. -/
def script (E : Env) (l : Bytes) : Bytes := ch '\n' :: E.script l

/-- The hashed name of `a.e` with these contents, as the code makes it. -/
def hashed (E : Env) (a e data : Bytes) : Bytes := a ++ bs ".-" ++ decDigits (E.crc data).toNat ++ ch '.' :: e

/-- The name under which the script of a language is served. -/
def scriptName (E : Env) (l : Bytes) : Bytes := hashed E (bs "main-" ++ l) (bs "js") (script E l)

end ASpec
open ASpec

theorem hashName_hashed (E : Env) (a e data : Bytes) (he : ch '.' ∉ e) : hashName E (a ++ ch '.' :: e) data = hashed E a e data := by
  rw [hashName_of E a e data he, hashed, show bs ".-" = [ch '.', ch '-'] by decide]; simp

theorem stem_hashed (E : Env) (a e data : Bytes) (ha : ch '.' ∉ a) : stem (hashed E a e data) = a := by
  rw [hashed, show bs ".-" = ch '.' :: [ch '-'] by decide]
  simp only [List.append_assoc, List.cons_append]
  exact stem_of _ _ ha

theorem ext_hashed (E : Env) (a e data : Bytes) (he : ch '.' ∉ e) : extension (hashed E a e data) = e := by
  rw [hashed]; exact ext_of _ _ he

theorem dot_hashed (E : Env) (a e data : Bytes) : ch '.' ∈ hashed E a e data := by simp [hashed]

theorem hashed_ne (E : Env) (a e data : Bytes) : a ++ ch '.' :: e ≠ hashed E a e data := by
  intro h; have := congrArg List.length h
  simp only [hashed, List.length_append, List.length_cons, show (bs ".-").length = 2 by decide] at this
  omega

theorem dot_js : ch '.' ∉ bs "js" := by decide
theorem dot_html : ch '.' ∉ bs "html" := by decide
theorem dot_css : ch '.' ∉ bs "css" := by decide

/-! ## One language -/

theorem appLang_js (E : Env) (w : World) (l : Bytes) : (appLang E w l).2.1 = scriptName E l := by
  simp only [appLang, js_eq, hashName_hashed _ _ _ _ dot_js]; rfl

/-- Opening, writing and renaming with files of one stem leaves the others alone. -/
theorem appLang_gui_other (E : Env) (w : World) (l m : Bytes) (hl : ch '.' ∉ l) (hm : stem m ≠ bs "main-" ++ l) :
    (appLang E w l).1 .gui m = w .gui m := by
  have hd := dot_main l hl
  have n1 : ∀ r : Bytes, m ≠ (bs "main-" ++ l) ++ ch '.' :: r := fun r h => hm (by rw [h, stem_of _ _ hd])
  have n2 : ∀ e x, m ≠ hashed E (bs "main-" ++ l) e x := fun e x h => hm (by rw [h, stem_hashed _ _ _ _ hd])
  have n3 : ∀ e x r, m ≠ hashed E (bs "main-" ++ l) e x ++ r := fun e x r h =>
    hm (by rw [h]; exact stem_append _ _ _ (stem_hashed _ _ _ _ hd) (dot_hashed _ _ _ _))
  simp only [appLang, js_eq, html_eq, hashName_hashed _ _ _ _ dot_js, hashName_hashed _ _ _ _ dot_html]
  rw [put_other _ _ _ _ _ _ (.inl (by decide)), compress_other _ _ _ _ _ _ (.inr fun e f _ => n3 _ _ _),
    move_other _ _ _ _ _ _ (.inr ⟨n1 _, n2 _ _⟩), put_other _ _ _ _ _ _ (.inr (n1 _)), get_other _ _ _ _ _ (.inr (n1 _)),
    compress_other _ _ _ _ _ _ (.inr fun e f _ => n3 _ _ _), move_other _ _ _ _ _ _ (.inr ⟨n1 _, n2 _ _⟩),
    put_other _ _ _ _ _ _ (.inr (n1 _))]

theorem appLang_script (E : Env) (hE : EncsOk E) (w : World) (l : Bytes) (hl : ch '.' ∉ l) :
    (appLang E w l).1 .gui (scriptName E l) = some (script E l) := by
  have hd := dot_main l hl
  have x1 : extension (scriptName E l) = bs "js" := ext_hashed _ _ _ _ dot_js
  have n1 : scriptName E l ≠ (bs "main-" ++ l) ++ ch '.' :: bs "html" := fun h => by
    rw [h, ext_of _ _ dot_html] at x1; exact absurd x1 (by decide)
  have n2 : ∀ x, scriptName E l ≠ hashed E (bs "main-" ++ l) (bs "html") x := fun x h => by
    rw [h, ext_hashed _ _ _ _ dot_html] at x1; exact absurd x1 (by decide)
  simp only [appLang, js_eq, html_eq, hashName_hashed _ _ _ _ dot_js, hashName_hashed _ _ _ _ dot_html]
  rw [put_other _ _ _ _ _ _ (.inl (by decide)), compress_other _ _ _ _ _ _ (.inr fun e f he h => ?_),
    move_other _ _ _ _ _ _ (.inr ⟨n1, n2 _⟩), put_other _ _ _ _ _ _ (.inr n1), get_other _ _ _ _ _ (.inr n1)]
  · show (compress E _ _ (scriptName E l)).1 .gui (scriptName E l) = _
    rw [compress_self]
    exact (move_same _ _ _ _).trans (put_same _ _ _ _)
  · have := hE e f he
    rw [h, ext_of _ _ this.1] at x1
    exact this.2.1 x1

/-- The compressed forms of the script. -/
theorem appLang_compressed (E : Env) (hE : EncsOk E) (w : World) (l e : Bytes) (f : Bytes → Bytes) (hl : ch '.' ∉ l)
    (he : E.encs = [some (e, f)]) : (appLang E w l).1 .gui (scriptName E l ++ ch '.' :: e) = some (f (script E l)) := by
  have hd := dot_main l hl
  have hok := hE e f (by simp [he])
  have x1 : extension (scriptName E l ++ ch '.' :: e) = e := ext_of _ _ hok.1
  have n1 : scriptName E l ++ ch '.' :: e ≠ (bs "main-" ++ l) ++ ch '.' :: bs "html" := fun h => by
    rw [h, ext_of _ _ dot_html] at x1; exact hok.2.2.1 x1.symm
  have n2 : ∀ x, scriptName E l ++ ch '.' :: e ≠ hashed E (bs "main-" ++ l) (bs "html") x := fun x h => by
    rw [h, ext_hashed _ _ _ _ dot_html] at x1; exact hok.2.2.1 x1.symm
  have n3 : ∀ x, scriptName E l ++ ch '.' :: e ≠ hashed E (bs "main-" ++ l) (bs "html") x ++ ch '.' :: e := fun x h => by
    have h' := List.append_cancel_right h
    have x2 : extension (scriptName E l) = bs "js" := ext_hashed _ _ _ _ dot_js
    rw [h', ext_hashed _ _ _ _ dot_html] at x2; exact absurd x2 (by decide)
  simp only [appLang, js_eq, html_eq, hashName_hashed _ _ _ _ dot_js, hashName_hashed _ _ _ _ dot_html]
  rw [put_other _ _ _ _ _ _ (.inl (by decide)), compress_other _ _ _ _ _ _ (.inr fun e' f' he' h => ?_),
    move_other _ _ _ _ _ _ (.inr ⟨n1, n2 _⟩), put_other _ _ _ _ _ _ (.inr n1), get_other _ _ _ _ _ (.inr n1)]
  · show (compress E _ _ (scriptName E l)).1 .gui (scriptName E l ++ ch '.' :: e) = _
    rw [compress, if_neg, he, compressLoop, compressLoop]
    · show World.put _ _ _ _ _ _ = _
      rw [put_same]
      congr 2
      exact congrArg (Option.getD · []) ((move_same _ _ _ _).trans (put_same _ _ _ _))
    · rw [show extension (scriptName E l) = bs "js" from ext_hashed _ _ _ _ dot_js]; decide
  · rw [he] at he'
    obtain ⟨rfl, rfl⟩ : e' = e ∧ f' = f := by simpa using he'
    exact n3 _ h

theorem appLang_page (E : Env) (hE : EncsOk E) (w : World) (l : Bytes) (hl : ch '.' ∉ l) :
    (appLang E w l).1 .mainHTML l =
      some (replaceFirst (E.minify (bs "html") ((w .gui (bs "main-" ++ l ++ bs ".html")).getD [])) (bs "/main.js") (scriptName E l)) := by
  have hd := dot_main l hl
  have x1 : extension ((bs "main-" ++ l) ++ ch '.' :: bs "html") = bs "html" := ext_of _ _ dot_html
  have n1 : (bs "main-" ++ l) ++ ch '.' :: bs "html" ≠ (bs "main-" ++ l) ++ ch '.' :: bs "js" := fun h => by
    rw [h, ext_of _ _ dot_js] at x1; exact absurd x1 (by decide)
  have n2 : ∀ x, (bs "main-" ++ l) ++ ch '.' :: bs "html" ≠ hashed E (bs "main-" ++ l) (bs "js") x := fun x h => by
    rw [h, ext_hashed _ _ _ _ dot_js] at x1; exact absurd x1 (by decide)
  simp only [appLang, js_eq, html_eq, hashName_hashed _ _ _ _ dot_js, hashName_hashed _ _ _ _ dot_html]
  rw [put_same, get_snd, compress_other _ _ _ _ _ _ (.inr fun e f he h => ?_), move_other _ _ _ _ _ _ (.inr ⟨n1, n2 _⟩),
    put_other _ _ _ _ _ _ (.inr n1)]
  · rfl
  · rw [h, ext_of _ _ (hE e f he).1] at x1
    exact (hE e f he).2.2.1 x1

theorem appLang_mainHTML_other (E : Env) (w : World) (l m : Bytes) (h : m ≠ l) : (appLang E w l).1 .mainHTML m = w .mainHTML m := by
  simp only [appLang]
  rw [put_other _ _ _ _ _ _ (.inr h), compress_other _ _ _ _ _ _ (.inl (by decide)), move_other _ _ _ _ _ _ (.inl (by decide)),
    put_other _ _ _ _ _ _ (.inl (by decide)), get_other _ _ _ _ _ (.inl (by decide)), compress_other _ _ _ _ _ _ (.inl (by decide)),
    move_other _ _ _ _ _ _ (.inl (by decide)), put_other _ _ _ _ _ _ (.inl (by decide))]

theorem appLang_dir_other (E : Env) (w : World) (l m : Bytes) (d : Dir) (h1 : d ≠ .gui) (h2 : d ≠ .mainHTML) :
    (appLang E w l).1 d m = w d m := by
  simp only [appLang]
  rw [put_other _ _ _ _ _ _ (.inl h2), compress_other _ _ _ _ _ _ (.inl h1), move_other _ _ _ _ _ _ (.inl h1),
    put_other _ _ _ _ _ _ (.inl h1), get_other _ _ _ _ _ (.inl h1), compress_other _ _ _ _ _ _ (.inl h1),
    move_other _ _ _ _ _ _ (.inl h1), put_other _ _ _ _ _ _ (.inl h1)]

/-! ## All languages -/

theorem appLangs_gui_other (E : Env) : ∀ (ls : List Bytes) (w : World) (m : Bytes), (∀ l ∈ ls, ch '.' ∉ l ∧ stem m ≠ bs "main-" ++ l) →
    (appLangs E w ls).1 .gui m = w .gui m
  | [], _, _, _ => rfl
  | l :: ls, w, m, h => by
    simp only [appLangs]
    rw [appLangs_gui_other E ls _ m (fun x hx => h x (by simp [hx])), appLang_gui_other E w l m (h l (by simp)).1 (h l (by simp)).2]

theorem appLangs_mainHTML_other (E : Env) : ∀ (ls : List Bytes) (w : World) (m : Bytes), m ∉ ls →
    (appLangs E w ls).1 .mainHTML m = w .mainHTML m
  | [], _, _, _ => rfl
  | l :: ls, w, m, h => by
    simp only [appLangs]
    rw [appLangs_mainHTML_other E ls _ m (fun hx => h (by simp [hx])), appLang_mainHTML_other E w l m (fun e => h (by simp [e]))]

theorem appLangs_names (E : Env) : ∀ (ls : List Bytes) (w : World),
    (appLangs E w ls).2.map (·.2.1) = ls.map (scriptName E) ∧ (appLangs E w ls).2.map (·.1) = ls
  | [], _ => ⟨rfl, rfl⟩
  | l :: ls, w => by
    have := appLangs_names E ls (appLang E w l).1
    simp only [appLangs, List.map_cons, this.1, this.2, appLang_js, and_self]

/-- What a language leaves behind is not touched by the languages after it. -/
theorem appLangs_at (E : Env) (ls1 ls2 : List Bytes) (l : Bytes) (hdots : ∀ x ∈ ls1 ++ l :: ls2, ch '.' ∉ x)
    (hn : (ls1 ++ l :: ls2).Nodup) (w : World) : ∃ v : World,
      (∀ m, stem m = bs "main-" ++ l → v .gui m = w .gui m) ∧
      (∀ m, stem m = bs "main-" ++ l → (appLangs E w (ls1 ++ l :: ls2)).1 .gui m = (appLang E v l).1 .gui m) ∧
      (appLangs E w (ls1 ++ l :: ls2)).1 .mainHTML l = (appLang E v l).1 .mainHTML l := by
  induction ls1 generalizing w with
  | nil =>
    refine ⟨w, fun _ _ => rfl, fun m hm => ?_, ?_⟩
    · simp only [List.nil_append, appLangs]
      refine appLangs_gui_other E ls2 _ m fun x hx => ⟨hdots x (by simp [hx]), ?_⟩
      rw [hm]
      intro h
      have := List.append_cancel_left h
      subst this
      exact (List.nodup_cons.1 hn).1 hx
    · simp only [List.nil_append, appLangs]
      exact appLangs_mainHTML_other E ls2 _ l (List.nodup_cons.1 hn).1
  | cons a ls1 ih =>
    obtain ⟨v, h1, h2, h3⟩ := ih (fun x hx => hdots x (by simp at hx ⊢; exact .inr hx)) (List.nodup_cons.1 hn).2 (appLang E w a).1
    refine ⟨v, fun m hm => ?_, fun m hm => ?_, ?_⟩
    · rw [h1 m hm]
      refine appLang_gui_other E w a m (hdots a (by simp)) ?_
      rw [hm]
      intro h
      have := List.append_cancel_left h
      subst this
      exact (List.nodup_cons.1 hn).1 (by simp)
    · rw [List.cons_append]; simp only [appLangs]; exact h2 m hm
    · rw [List.cons_append]; simp only [appLangs]; exact h3

/-! ## The steps around it -/

theorem get_gui_ne (w : World) (n m : Bytes) (h : stem m ≠ stem n) : (w.get .gui n).1 .gui m = w .gui m :=
  get_other _ _ _ _ _ (.inr fun e => h (by rw [e]))

theorem landingLangs_gui (E : Env) (d : Dir) (hd : d ≠ .landings) (a mixed m : Bytes) : ∀ (ls : List (Bytes × List Bytes)) (w w' : World),
    landingLangs E a mixed w ls = some w' → w' d m = w d m
  | [], w, w', h => by simp only [landingLangs, Option.some.injEq] at h; rw [h]
  | l :: ls, w, w', h => by
    simp only [landingLangs, Option.bind_eq_some_iff, landingLang, Option.map_eq_some_iff] at h
    obtain ⟨v, ⟨x, _, hv⟩, hw⟩ := h
    rw [landingLangs_gui E d hd a mixed m ls v w' hw, ← hv, compress_other _ _ _ _ _ _ (.inl hd), put_other _ _ _ _ _ _ (.inl hd)]

theorem landing_gui (E : Env) (d : Dir) (hd : d ≠ .landings) (n m : Bytes) (w w' : World) (h : landing E w n = some w') : w' d m = w d m := by
  simp only [landing] at h
  split at h
  · split at h
    · cases h; exact get_other _ _ _ _ _ (.inl hd)
    · rw [landingLangs_gui E d hd _ _ _ _ _ _ h, get_other _ _ _ _ _ (.inl hd), get_other _ _ _ _ _ (.inl hd)]
  · cases h; rfl

theorem readyLandings_gui (E : Env) (d : Dir) (hd : d ≠ .landings) (m : Bytes) : ∀ (ns : List Bytes) (w w' : World),
    readyLandings E w ns = some w' → w' d m = w d m
  | [], w, w', h => by simp only [readyLandings, Option.some.injEq] at h; rw [h]
  | n :: ns, w, w', h => by
    simp only [readyLandings, Option.bind_eq_some_iff] at h
    obtain ⟨v, hv, hw⟩ := h
    rw [readyLandings_gui E d hd m ns v w' hw, landing_gui E d hd n m w v hv]

theorem swLang_gui_other (E : Env) (w : World) (l : Bytes × Bytes × Bytes) (m : Bytes) (hl : ch '.' ∉ l.1) (hm : stem m ≠ bs "sw-" ++ l.1) :
    swLang E w l .gui m = w .gui m := by
  have hd := dot_sw l.1 hl
  simp only [swLang, sw_eq]
  rw [compress_other _ _ _ _ _ _ (.inr fun e f _ h => hm ?_), put_other _ _ _ _ _ _ (.inr fun h => hm ?_), get_other _ _ _ _ _ (.inl (by decide))]
  · rw [h, stem_of _ _ hd]
  · rw [h, List.append_assoc, List.cons_append, stem_of _ _ hd]

theorem swLang_other (E : Env) (w : World) (l : Bytes × Bytes × Bytes) (d : Dir) (m : Bytes) (h1 : d ≠ .gui) (h2 : d ≠ .os) :
    swLang E w l d m = w d m := by
  simp only [swLang]
  rw [compress_other _ _ _ _ _ _ (.inl h1), put_other _ _ _ _ _ _ (.inl h1), get_other _ _ _ _ _ (.inl h2)]

theorem sw_gui_other (E : Env) : ∀ (ls : List (Bytes × Bytes × Bytes)) (w : World) (m : Bytes),
    (∀ l ∈ ls, ch '.' ∉ l.1 ∧ stem m ≠ bs "sw-" ++ l.1) → ls.foldl (swLang E) w .gui m = w .gui m
  | [], _, _, _ => rfl
  | l :: ls, w, m, h => by
    rw [List.foldl_cons, sw_gui_other E ls _ m (fun x hx => h x (by simp [hx])), swLang_gui_other E w l m (h l (by simp)).1 (h l (by simp)).2]

theorem sw_other (E : Env) (d : Dir) (h1 : d ≠ .gui) (h2 : d ≠ .os) : ∀ (ls : List (Bytes × Bytes × Bytes)) (w : World) (m : Bytes),
    ls.foldl (swLang E) w d m = w d m
  | [], _, _ => rfl
  | l :: ls, w, m => by rw [List.foldl_cons, sw_other E d h1 h2 ls _ m, swLang_other E w l d m h1 h2]

theorem scripts_other (name hn : Bytes) (d : Dir) (m : Bytes) : ∀ (scripts : List Bytes) (w : World), (d ≠ .gui ∨ m ∉ scripts) →
    scripts.foldl (fun (w : World) s => w.put .gui s (replaceAll ((w .gui s).getD []) name hn)) w d m = w d m
  | [], _, _ => rfl
  | s :: ss, w, h => by
    rw [List.foldl_cons, scripts_other name hn d m ss _ (h.imp_right fun h g => h (by simp [g])),
      put_other _ _ _ _ _ _ (h.imp_right fun h g => h (by simp [g]))]

theorem scripts_mem (name hn m : Bytes) : ∀ (scripts : List Bytes) (w : World), scripts.Nodup → m ∈ scripts →
    scripts.foldl (fun (w : World) s => w.put .gui s (replaceAll ((w .gui s).getD []) name hn)) w .gui m =
      some (replaceAll ((w .gui m).getD []) name hn)
  | [], _, _, h => absurd h (by simp)
  | s :: ss, w, hn', h => by
    rw [List.foldl_cons]
    by_cases he : m = s
    · subst he
      rw [scripts_other _ _ _ _ _ _ (.inr (List.nodup_cons.1 hn').1), put_same]
    · have hm : m ∈ ss := by simpa [he] using h
      rw [scripts_mem name hn m ss _ (List.nodup_cons.1 hn').2 hm, put_other _ _ _ _ _ _ (.inr he)]

theorem style_script (E : Env) (scripts : List Bytes) (w : World) (name temp data m : Bytes) (hn : scripts.Nodup) (hm : m ∈ scripts) :
    style E scripts w name temp data .gui m =
      some (replaceAll ((w .gui m).getD []) name (hashName E temp (E.minify (bs "css") data))) := by
  simp only [style]
  rw [scripts_mem _ _ _ _ _ hn hm, compress_other _ _ _ _ _ _ (.inl (by decide)), move_other _ _ _ _ _ _ (.inl (by decide)),
    put_other _ _ _ _ _ _ (.inl (by decide))]

theorem style_other (E : Env) (scripts : List Bytes) (w : World) (name temp data m : Bytes) (d : Dir) (h1 : d ≠ .designLanguages)
    (h2 : d ≠ .gui ∨ m ∉ scripts) : style E scripts w name temp data d m = w d m := by
  simp only [style]
  rw [scripts_other _ _ _ _ _ _ h2, compress_other _ _ _ _ _ _ (.inl h1), move_other _ _ _ _ _ _ (.inl h1), put_other _ _ _ _ _ _ (.inl h1)]

theorem style_stable (E : Env) (scripts : List Bytes) (w : World) (name temp data m x : Bytes) (hn : scripts.Nodup)
    (hw : w .gui m = some x) (hx : ¬ name <:+: x) : style E scripts w name temp data .gui m = some x := by
  by_cases hm : m ∈ scripts
  · rw [style_script E scripts w name temp data m hn hm, hw, Option.getD_some, replaceAll_none _ _ _ hx]
  · rw [style_other E scripts w name temp data m _ (by decide) (.inr hm), hw]

/-- What is done to the files before the style sheets. -/
theorem update_eq (E : Env) (hE : EncsOk E) (landings styles : List Bytes) (dirs : List (Bytes × List (Bytes × Bytes))) (w w' : World)
    (h : update E landings styles dirs w = some w') (ls : List Bytes)
    (hls : (E.langs ((w .gui (bs "main.json")).getD [])).map (·.1) = ls) (hdots : ∀ l ∈ ls, ch '.' ∉ l) (hn : ls.Nodup) :
    ∃ v : World, w' = readyStyles E (ls.map (scriptName E)) styles dirs v ∧ (∀ m, v .designLanguages m = w .designLanguages m) ∧
      ∀ l ∈ ls, v .gui (scriptName E l) = some (script E l) ∧
        (∀ e f, E.encs = [some (e, f)] → v .gui (scriptName E l ++ ch '.' :: e) = some (f (script E l))) ∧
        v .mainHTML l =
          some (replaceFirst (E.minify (bs "html") ((w .gui (bs "main-" ++ l ++ bs ".html")).getD [])) (bs "/main.js") (scriptName E l)) := by
  simp only [update, Option.map_eq_some_iff] at h
  obtain ⟨w1, h1, h2⟩ := h
  have hg : ∀ m, w1 .gui m = w .gui m := fun m => readyLandings_gui E .gui (by decide) m landings w w1 h1
  have hd : ∀ m, w1 .designLanguages m = w .designLanguages m := fun m => readyLandings_gui E .designLanguages (by decide) m landings w w1 h1
  have hlj : (((w1.get .landings (bs "main.html")).1.get .gui (bs "main.js")).1.get .gui (bs "main.json")).2 =
      (w .gui (bs "main.json")).getD [] := by
    rw [get_snd, get_other _ _ _ _ _ (.inr (by decide)), get_other _ _ _ _ _ (.inl (by decide)), hg]
  simp only [readyAppJS, hlj, hls] at h2
  obtain ⟨w2, hw2⟩ : ∃ w2, (((w1.get .landings (bs "main.html")).1.get .gui (bs "main.js")).1.get .gui (bs "main.json")).1 = w2 := ⟨_, rfl⟩
  rw [hw2] at h2
  have hg2 : ∀ m, stem m ≠ bs "main" → w2 .gui m = w .gui m := by
    intro m hm
    rw [← hw2, get_gui_ne _ _ _ (by rw [show stem (bs "main.json") = bs "main" by decide]; exact hm),
      get_gui_ne _ _ _ (by rw [show stem (bs "main.js") = bs "main" by decide]; exact hm), get_other _ _ _ _ _ (.inl (by decide)), hg]
  have hd2 : ∀ m, w2 .designLanguages m = w .designLanguages m := by
    intro m
    rw [← hw2, get_other _ _ _ _ _ (.inl (by decide)), get_other _ _ _ _ _ (.inl (by decide)), get_other _ _ _ _ _ (.inl (by decide)), hd]
  rw [(appLangs_names E ls w2).1] at h2
  refine ⟨_, h2.symm, fun m => ?_, fun l hl => ?_⟩
  · rw [sw_other E _ (by decide) (by decide), ← hd2]
    clear h2 hls hg2 hd2 hw2 hlj hdots hn h1
    induction ls generalizing w2 with
    | nil => rfl
    | cons a ls ih => simp only [appLangs]; rw [ih, appLang_dir_other E w2 a m _ (by decide) (by decide)]
  · obtain ⟨ls1, ls2, rfl⟩ := List.append_of_mem hl
    have hld := hdots l hl
    have hdm := dot_main l hld
    obtain ⟨v, v1, v2, v3⟩ := appLangs_at E ls1 ls2 l hdots hn w2
    have hsw : ∀ m, stem m = bs "main-" ++ l →
        (appLangs E w2 (ls1 ++ l :: ls2)).2.foldl (swLang E) (appLangs E w2 (ls1 ++ l :: ls2)).1 .gui m = (appLang E v l).1 .gui m := by
      intro m hm
      rw [sw_gui_other E _ _ m, v2 m hm]
      intro x hx
      refine ⟨hdots x.1 ?_, ?_⟩
      · rw [← (appLangs_names E (ls1 ++ l :: ls2) w2).2]
        exact List.mem_map_of_mem hx
      · rw [hm]; intro he
        have := congrArg (List.head? ·) he
        simp [show bs "main-" = [ch 'm', ch 'a', ch 'i', ch 'n', ch '-'] by decide, show bs "sw-" = [ch 's', ch 'w', ch '-'] by decide] at this
        exact absurd this (by decide)
    refine ⟨?_, fun e f he => ?_, ?_⟩
    · rw [hsw (scriptName E l) (stem_hashed _ _ _ _ hdm)]; exact appLang_script E hE v l hld
    · rw [hsw (scriptName E l ++ ch '.' :: e) (stem_append _ _ _ (stem_hashed _ _ _ _ hdm) (dot_hashed _ _ _ _))]
      exact appLang_compressed E hE v l e f hld he
    · rw [sw_other E _ (by decide) (by decide), v3, appLang_page E hE v l hld]
      have hst : stem (bs "main-" ++ l ++ bs ".html") = bs "main-" ++ l := by rw [html_eq, stem_of _ _ hdm]
      rw [v1 _ hst, hg2 _ (by
        rw [hst]; intro he
        have := congrArg List.length he
        simp [show (bs "main-").length = 5 by decide, show (bs "main").length = 4 by decide] at this
        omega)]

theorem scripts_nodup (E : Env) (ls : List Bytes) (hdots : ∀ l ∈ ls, ch '.' ∉ l) (hn : ls.Nodup) : (ls.map (scriptName E)).Nodup := by
  induction ls with
  | nil => simp
  | cons a ls ih =>
    rw [List.map_cons, List.nodup_cons]
    refine ⟨fun h => ?_, ih (fun l hl => hdots l (by simp [hl])) (List.nodup_cons.1 hn).2⟩
    obtain ⟨b, hb, he⟩ := List.mem_map.1 h
    have := congrArg stem he
    rw [show stem (scriptName E b) = _ from stem_hashed _ _ _ _ (dot_main b (hdots b (by simp [hb]))),
      show stem (scriptName E a) = _ from stem_hashed _ _ _ _ (dot_main a (hdots a (by simp)))] at this
    have := List.append_cancel_left this
    subst this
    exact (List.nodup_cons.1 hn).1 hb

theorem mainjs_unique : EndsUniquely (bs "/main.js") := ⟨bs "/main.j", ch 's', by decide, by decide⟩

theorem readyStyles_other (E : Env) (scripts names : List Bytes) (dirs : List (Bytes × List (Bytes × Bytes))) (w : World) (d : Dir) (m : Bytes)
    (h1 : d ≠ .designLanguages) (h2 : d ≠ .gui) : readyStyles E scripts names dirs w d m = w d m := by
  unfold readyStyles
  have k2 : ∀ (ds : List (Bytes × List (Bytes × Bytes))) (u : World), ds.foldl (styleDir E scripts) u d m = u d m := by
    intro ds
    induction ds with
    | nil => intro u; rfl
    | cons x ds ih => intro u; rw [List.foldl_cons, ih, styleDir, style_other E scripts u _ _ _ _ _ h1 (.inl h2)]
  have k1 : ∀ (ns : List Bytes) (u : World), ns.foldl (styleFile E scripts) u d m = u d m := by
    intro ns
    induction ns with
    | nil => intro u; rfl
    | cons x ns ih =>
      intro u; rw [List.foldl_cons, ih, styleFile]
      split
      · rw [style_other E scripts u _ _ _ _ _ h1 (.inl h2)]
      · rfl
  rw [k2, k1]

theorem replaceAll_id (s old : Bytes) : replaceAll s old old = s := by
  unfold replaceAll
  generalize s.length + 1 = k
  induction k generalizing s with
  | zero => rfl
  | succ k ih =>
    rw [replaceAllLoop]
    split
    · rfl
    · rename_i i hi
      rw [ih]
      exact (indexOf_split s old i hi).symm

/-! ## C133 -/

/-- C133: the script of every language is served under a name made from the checksum of its contents, for any languages, landing pages and
style sheets, as long as no name of a style sheet occurs in the script. Missing: scripts that load a style sheet, for which it is wrong, see
below. -/
theorem C133_hashed_partial (E : Env) (hE : EncsOk E) (landings styles : List Bytes) (dirs : List (Bytes × List (Bytes × Bytes)))
    (w w' : World) (h : update E landings styles dirs w = some w') (ls : List Bytes)
    (hls : (E.langs ((w .gui (bs "main.json")).getD [])).map (·.1) = ls) (hdots : ∀ l ∈ ls, ch '.' ∉ l) (hn : ls.Nodup) (l : Bytes)
    (hl : l ∈ ls) (h1 : ∀ n ∈ styles, extension n = bs "css" → ¬ n <:+: script E l) (h2 : ∀ d ∈ dirs, ¬ (d.1 ++ bs ".css") <:+: script E l) :
    w' .gui (hashed E (bs "main-" ++ l) (bs "js") (script E l)) = some (script E l) := by
  obtain ⟨v, rfl, _, hv⟩ := update_eq E hE landings styles dirs w w' h ls hls hdots hn
  have hnd := scripts_nodup E ls hdots hn
  have k1 : ∀ (ns : List Bytes) (u : World), (∀ n ∈ ns, extension n = bs "css" → ¬ n <:+: script E l) →
      u .gui (scriptName E l) = some (script E l) →
      ns.foldl (styleFile E (ls.map (scriptName E))) u .gui (scriptName E l) = some (script E l) := by
    intro ns
    induction ns with
    | nil => intro u _ hu; exact hu
    | cons n ns ih =>
      intro u hx hu
      rw [List.foldl_cons]
      refine ih _ (fun m hm => hx m (by simp [hm])) ?_
      unfold styleFile
      split
      · rename_i hc
        exact style_stable E _ u _ _ _ _ _ hnd hu (hx n (by simp) hc)
      · exact hu
  have k2 : ∀ (ds : List (Bytes × List (Bytes × Bytes))) (u : World), (∀ d ∈ ds, ¬ (d.1 ++ bs ".css") <:+: script E l) →
      u .gui (scriptName E l) = some (script E l) →
      ds.foldl (styleDir E (ls.map (scriptName E))) u .gui (scriptName E l) = some (script E l) := by
    intro ds
    induction ds with
    | nil => intro u _ hu; exact hu
    | cons d ds ih =>
      intro u hx hu
      rw [List.foldl_cons]
      exact ih _ (fun m hm => hx m (by simp [hm])) (style_stable E _ u _ _ _ _ _ hnd hu (hx d (by simp)))
  exact k2 dirs _ h2 (k1 styles _ h1 (hv l hl).1)

/-- C133: the page of every language names the script of that language, and what is served for the language is that page. Missing: that the
page is made from the landing page, refuted below. -/
theorem C133_page_partial (E : Env) (hE : EncsOk E) (landings styles : List Bytes) (dirs : List (Bytes × List (Bytes × Bytes)))
    (w w' : World) (h : update E landings styles dirs w = some w') (ls : List Bytes)
    (hls : (E.langs ((w .gui (bs "main.json")).getD [])).map (·.1) = ls) (hdots : ∀ l ∈ ls, ch '.' ∉ l) (hn : ls.Nodup) (l : Bytes)
    (hl : l ∈ ls) (page a b : Bytes) (hp : w .gui (bs "main-" ++ l ++ bs ".html") = some page)
    (hm : E.minify (bs "html") page = a ++ bs "/main.js" ++ b) (ha : ¬ bs "/main.js" <:+: a) :
    w' .mainHTML l = some (a ++ hashed E (bs "main-" ++ l) (bs "js") (script E l) ++ b) := by
  obtain ⟨v, rfl, _, hv⟩ := update_eq E hE landings styles dirs w w' h ls hls hdots hn
  rw [readyStyles_other E _ _ _ _ _ _ (by decide) (by decide), (hv l hl).2.2, hp, Option.getD_some, hm, replaceFirst, List.append_assoc,
    indexOf_first _ mainjs_unique a b ha]
  simp only [scriptName]
  rw [List.take_left', ← List.append_assoc, List.drop_left'] <;> simp

/-- C133 violated: the name of a script is made before the style sheets are put into it. Whenever a style sheet
is named in a script, two contents of the sheet with different checksums give the same name of the script and different contents of it, so a
browser that kept the first one, as it may for a name made from a checksum, shows the old style. -/
theorem C133_stale_violated (E : Env) (hE : EncsOk E) (landings : List Bytes) (w w1 w2 : World) (a c1 c2 : Bytes) (ls : List Bytes)
    (hls : (E.langs ((w .gui (bs "main.json")).getD [])).map (·.1) = ls) (hdots : ∀ l ∈ ls, ch '.' ∉ l) (hn : ls.Nodup) (l : Bytes)
    (hl : l ∈ ls) (hs : (a ++ bs ".css") <:+: script E l) (hc : E.crc (E.minify (bs "css") c1) ≠ E.crc (E.minify (bs "css") c2))
    (h1 : update E landings [a ++ bs ".css"] [] (w.put .designLanguages (a ++ bs ".css") c1) = some w1)
    (h2 : update E landings [a ++ bs ".css"] [] (w.put .designLanguages (a ++ bs ".css") c2) = some w2) :
    ∃ x1 x2, w1 .gui (scriptName E l) = some x1 ∧ w2 .gui (scriptName E l) = some x2 ∧ x1 ≠ x2 := by
  have e : a ++ bs ".css" = a ++ ch '.' :: bs "css" := by rw [show bs ".css" = ch '.' :: bs "css" by decide]
  have one : ∀ c w1, update E landings [a ++ bs ".css"] [] (w.put .designLanguages (a ++ bs ".css") c) = some w1 →
      w1 .gui (scriptName E l) = some (replaceAll (script E l) (a ++ bs ".css") (hashed E (bs "h-" ++ a) (bs "css") (E.minify (bs "css") c))) := by
    intro c w1 h1
    obtain ⟨v, rfl, hd, hv⟩ := update_eq E hE _ _ _ _ w1 h1 ls (by rw [put_other _ _ _ _ _ _ (.inl (by decide))]; exact hls) hdots hn
    simp only [readyStyles, List.foldl_cons, List.foldl_nil, styleFile]
    rw [if_pos (by rw [e, ext_of _ _ dot_css]), style_script E _ v _ _ _ _ (scripts_nodup E ls hdots hn) (List.mem_map_of_mem hl), (hv l hl).1,
      hd, put_same, Option.getD_some, Option.getD_some]
    rw [show bs "h-" ++ (a ++ bs ".css") = (bs "h-" ++ a) ++ ch '.' :: bs "css" by rw [e, List.append_assoc], hashName_hashed _ _ _ _ dot_css]
  refine ⟨_, _, one c1 w1 h1, one c2 w2 h2, fun hx => ?_⟩
  have hy := replaceAll_inj _ _ _ _ hs hx
  simp only [hashed, List.append_assoc] at hy
  have hz := List.append_cancel_left (List.append_cancel_left (List.append_cancel_left hy))
  have hw := decDigits_inj _ _ (List.append_cancel_right hz)
  exact hc (BitVec.eq_of_toNat_eq hw)

/-- C133 violated for the compressed forms: the script is compressed before the style sheets are put into it: what the compressed file holds
is the script as it was, with a name of a style sheet that is not the one served, and the script itself is another text. -/
theorem C133_compressed_stale_violated (E : Env) (hE : EncsOk E) (e : Bytes) (f : Bytes → Bytes) (he : E.encs = [some (e, f)])
    (landings : List Bytes) (w w1 : World) (a c : Bytes) (ls : List Bytes)
    (hls : (E.langs ((w .gui (bs "main.json")).getD [])).map (·.1) = ls) (hdots : ∀ l ∈ ls, ch '.' ∉ l) (hn : ls.Nodup) (l : Bytes)
    (hl : l ∈ ls) (hs : (a ++ bs ".css") <:+: script E l) (hw : w .designLanguages (a ++ bs ".css") = some c)
    (h1 : update E landings [a ++ bs ".css"] [] w = some w1) :
    w1 .gui (scriptName E l ++ ch '.' :: e) = some (f (script E l)) ∧ ∃ x, w1 .gui (scriptName E l) = some x ∧ x ≠ script E l := by
  have ee : a ++ bs ".css" = a ++ ch '.' :: bs "css" := by rw [show bs ".css" = ch '.' :: bs "css" by decide]
  obtain ⟨v, rfl, hd, hv⟩ := update_eq E hE _ _ _ _ w1 h1 ls hls hdots hn
  simp only [readyStyles, List.foldl_cons, List.foldl_nil, styleFile]
  rw [if_pos (by rw [ee, ext_of _ _ dot_css])]
  constructor
  · rw [style_other E _ v _ _ _ _ _ (by decide) (.inr ?_)]
    · exact (hv l hl).2.1 e f he
    · intro hm
      obtain ⟨l', -, hl'⟩ := List.mem_map.1 hm
      have := congrArg extension hl'
      rw [ext_of _ _ (hE e f (by simp [he])).1, show extension (scriptName E l') = bs "js" from ext_hashed _ _ _ _ dot_js] at this
      exact (hE e f (by simp [he])).2.1 this.symm
  · rw [style_script E _ v _ _ _ _ (scripts_nodup E ls hdots hn) (List.mem_map_of_mem hl), (hv l hl).1, hd, hw, Option.getD_some, Option.getD_some]
    refine ⟨_, rfl, fun hx => ?_⟩
    have hy := replaceAll_inj _ _ _ _ hs (hx.trans (replaceAll_id (script E l) (a ++ bs ".css")).symm)
    rw [show bs "h-" ++ (a ++ bs ".css") = (bs "h-" ++ a) ++ ch '.' :: bs "css" by rw [ee, List.append_assoc], hashName_hashed _ _ _ _ dot_css] at hy
    have := congrArg List.length hy
    simp only [hashed, ee, List.length_append, List.length_cons, show (bs "h-").length = 2 by decide] at this
    omega

/-- C133 violated for the pages: the landing page is opened but never read: without a file `main-<lang>.html` from elsewhere, what is served
for a language is what is made of an empty file, whatever the landing page holds. -/
theorem C133_page_empty_violated (E : Env) (hE : EncsOk E) (hmin : E.minify (bs "html") [] = []) (landings styles : List Bytes)
    (dirs : List (Bytes × List (Bytes × Bytes))) (w w' : World) (page : Bytes)
    (h : update E landings styles dirs (w.put .landings (bs "main.html") page) = some w') (ls : List Bytes)
    (hls : (E.langs ((w .gui (bs "main.json")).getD [])).map (·.1) = ls) (hdots : ∀ l ∈ ls, ch '.' ∉ l) (hn : ls.Nodup) (l : Bytes)
    (hl : l ∈ ls) (hp : w .gui (bs "main-" ++ l ++ bs ".html") = none) : w' .mainHTML l = some [] := by
  obtain ⟨v, rfl, _, hv⟩ := update_eq E hE landings styles dirs _ w' h ls (by rw [put_other _ _ _ _ _ _ (.inl (by decide))]; exact hls) hdots hn
  rw [readyStyles_other E _ _ _ _ _ _ (by decide) (by decide), (hv l hl).2.2, put_other _ _ _ _ _ _ (.inl (by decide)), hp, Option.getD_none, hmin]
  rfl

/-! ### Landing pages -/

theorem landingLangs_other (E : Env) (a mixed m : Bytes) : ∀ (ls : List (Bytes × List Bytes)) (w w' : World),
    landingLangs E a mixed w ls = some w' →
    (∀ l ∈ ls, m ≠ a ++ ch '-' :: l.1 ++ bs ".html" ∧ ∀ e f, some (e, f) ∈ E.encs → m ≠ a ++ ch '-' :: l.1 ++ bs ".html" ++ ch '.' :: e) →
    w' .landings m = w .landings m
  | [], w, w', h, _ => by simp only [landingLangs, Option.some.injEq] at h; rw [h]
  | l :: ls, w, w', h, hm => by
    simp only [landingLangs, Option.bind_eq_some_iff, landingLang, Option.map_eq_some_iff] at h
    obtain ⟨v, ⟨x, _, hv⟩, hw⟩ := h
    rw [landingLangs_other E a mixed m ls v w' hw (fun x hx => hm x (by simp [hx])), ← hv,
      compress_other _ _ _ _ _ _ (.inr (hm l (by simp)).2), put_other _ _ _ _ _ _ (.inr (hm l (by simp)).1)]

/-- C133: a landing page `a.html` is mixed with its style sheet, localised for every language of its locale file and minified, when the locale
file and the style sheet are called `a..json` and `a..css`. Missing: the names `a.json` and `a.css`, which are not read (see below). -/
theorem C133_landing_partial (E : Env) (hE : EncsOk E) (a page css json : Bytes) (w w' : World)
    (hp : w .landings (a ++ bs ".html") = some page) (hc : w .landings (a ++ bs "..css") = some css)
    (hj : w .landings (a ++ bs "..json") = some json) (hn : ((E.langs json).map (·.1)).Nodup) (h : landing E w (a ++ bs ".html") = some w')
    (l : Bytes) (texts : List Bytes) (hl : (l, texts) ∈ E.langs json) :
    ∃ data, localiseHTML (page ++ bs "\n<style>" ++ css ++ bs "</style>") texts = some data ∧
      w' .landings (a ++ bs ".-" ++ l ++ bs ".html") = some (E.minify (bs "html") data) := by
  have eh : a ++ bs ".html" = a ++ ch '.' :: bs "html" := by rw [show bs ".html" = ch '.' :: bs "html" by decide]
  have hb : baseName (a ++ bs ".html") = a ++ [ch '.'] := by rw [eh, baseName_of _ _ dot_html]
  have ej : a ++ [ch '.'] ++ bs ".json" = a ++ bs "..json" := by
    rw [List.append_assoc, show bs "..json" = [ch '.'] ++ bs ".json" by decide]
  have ec : a ++ [ch '.'] ++ bs ".css" = a ++ bs "..css" := by
    rw [List.append_assoc, show bs "..css" = [ch '.'] ++ bs ".css" by decide]
  have en : ∀ x : Bytes, a ++ [ch '.'] ++ ch '-' :: x ++ bs ".html" = a ++ bs ".-" ++ x ++ bs ".html" := by
    intro x; rw [show bs ".-" = [ch '.', ch '-'] by decide]; simp
  simp only [landing] at h
  rw [if_pos (by rw [eh, ext_of _ _ dot_html]), hb, ej, ec, get_snd, hj, Option.getD_some, get_snd, get_some _ _ _ _ _ _ hc, Option.getD_some,
    get_some _ _ _ _ _ _ (get_some _ _ _ _ _ _ hp), Option.getD_some] at h
  rw [if_neg (by intro g; rw [g] at hl; simp at hl)] at h
  generalize ((w.get Dir.landings (a ++ bs "..json")).1.get Dir.landings (a ++ bs "..css")).1 = w0 at h
  generalize E.langs json = ls at *
  rw [← en]
  induction ls generalizing w0 with
  | nil => simp at hl
  | cons k ks ih =>
    have h0 := h
    simp only [landingLangs, Option.bind_eq_some_iff, landingLang, Option.map_eq_some_iff] at h
    obtain ⟨v, ⟨x, hx, hv⟩, hw⟩ := h
    by_cases hk : (l, texts) = k
    · subst hk
      refine ⟨x, hx, ?_⟩
      rw [landingLangs_other E _ _ _ ks v w' hw, ← hv, compress_self, put_same]
      intro y hy
      have ne : y.1 ≠ l := fun g => (List.nodup_cons.1 hn).1 (by
        show l ∈ _; rw [← g]; exact List.mem_map_of_mem (f := fun x : Bytes × List Bytes => x.1) hy)
      refine ⟨fun g => ne ?_, fun e f he g => ?_⟩
      · have := List.append_cancel_left (List.append_cancel_right g)
        simpa using this.symm
      · have := congrArg extension g
        rw [ext_of _ _ (hE e f he).1, show bs ".html" = ch '.' :: bs "html" by decide, ext_of _ _ dot_html] at this
        exact (hE e f he).2.2.1 this.symm
    · exact ih _ (List.nodup_cons.1 hn).2 (by simpa [hk] using hl) hw

/-- C133 violated for the landing pages: the name of the locale file is made with the dot of `a.html` left in, so `a.json` is not read.
Without files called `….json` with two dots no page is localised, whatever the other locale files hold: the only change is empty files. -/
theorem C133_landing_json_violated (E : Env) (hnil : E.langs [] = []) (ns : List Bytes) (w : World)
    (hw : ∀ a, (w .landings (a ++ bs "..json")).getD [] = []) :
    ∃ w', readyLandings E w ns = some w' ∧ ∀ m, w' .landings m = w .landings m ∨ (w .landings m = none ∧ w' .landings m = some []) := by
  induction ns generalizing w with
  | nil => exact ⟨w, rfl, fun _ => .inl rfl⟩
  | cons n ns ih =>
    obtain ⟨v, hv, hv1⟩ : ∃ v, landing E w n = some v ∧ ∀ m, v .landings m = w .landings m ∨ (w .landings m = none ∧ v .landings m = some []) := by
      simp only [landing]
      split
      · rename_i hh
        obtain ⟨a, ha, _⟩ := ext_split n _ hh (by decide)
        have ej : baseName n ++ bs ".json" = a ++ bs "..json" := by
          rw [ha, baseName_of _ _ dot_html, List.append_assoc, show bs "..json" = [ch '.'] ++ bs ".json" by decide]
        rw [ej, get_snd, hw, if_pos hnil]
        refine ⟨_, rfl, fun m => ?_⟩
        unfold World.get
        split
        · exact .inl rfl
        · rename_i hnone
          by_cases hm : m = a ++ bs "..json"
          · subst hm; exact .inr ⟨hnone, put_same _ _ _ _⟩
          · exact .inl (put_other _ _ _ _ _ _ (.inr hm))
      · exact ⟨w, rfl, fun _ => .inl rfl⟩
    have hv2 : ∀ a, (v .landings (a ++ bs "..json")).getD [] = [] := by
      intro a
      rcases hv1 (a ++ bs "..json") with g | g
      · rw [g, hw]
      · rw [g.2]; rfl
    obtain ⟨w', hw', hw1⟩ := ih v hv2
    refine ⟨w', by rw [readyLandings, hv]; exact hw', fun m => ?_⟩
    rcases hv1 m with g | g
    · rw [← g]; exact hw1 m
    · rcases hw1 m with k | k
      · exact .inr ⟨g.1, by rw [k, g.2]⟩
      · rw [g.2] at k; simp at k

/-! ### Pages and service workers -/

theorem appLang_html (E : Env) (w : World) (l : Bytes) :
    (appLang E w l).2.2 = hashed E (bs "main-" ++ l) (bs "html") (((appLang E w l).1 .mainHTML l).getD []) := by
  simp only [appLang, html_eq, hashName_hashed _ _ _ _ dot_html, put_same, Option.getD_some]

theorem appLang_html_file (E : Env) (w : World) (l : Bytes) : (appLang E w l).1 .gui (appLang E w l).2.2 = (appLang E w l).1 .mainHTML l := by
  simp only [appLang, put_same]
  rw [put_other _ _ _ _ _ _ (.inl (by decide)), compress_self, move_same, put_same]

theorem appLangs_html (E : Env) : ∀ (ls : List Bytes) (w : World), (∀ l ∈ ls, ch '.' ∉ l) → ls.Nodup →
    ∀ x ∈ (appLangs E w ls).2, x.2.2 = hashed E (bs "main-" ++ x.1) (bs "html") (((appLangs E w ls).1 .mainHTML x.1).getD []) ∧
      (appLangs E w ls).1 .gui x.2.2 = (appLangs E w ls).1 .mainHTML x.1
  | [], _, _, _, x, h => by simp [appLangs] at h
  | l :: ls, w, hd, hn, x, h => by
    simp only [appLangs, List.mem_cons] at h
    simp only [appLangs]
    rcases h with rfl | h
    · have e := appLang_html E w l
      rw [appLangs_mainHTML_other E ls _ l (List.nodup_cons.1 hn).1]
      refine ⟨e, ?_⟩
      rw [appLangs_gui_other, appLang_html_file]
      intro y hy
      refine ⟨hd y (by simp [hy]), ?_⟩
      show stem (appLang E w l).2.2 ≠ _
      rw [e, stem_hashed _ _ _ _ (dot_main l (hd l (by simp)))]
      intro g
      have := List.append_cancel_left g
      subst this
      exact (List.nodup_cons.1 hn).1 hy
    · exact appLangs_html E ls _ (fun l hl => hd l (by simp [hl])) (List.nodup_cons.1 hn).2 x h

theorem sw_at (E : Env) (s : Bytes) : ∀ (ls : List (Bytes × Bytes × Bytes)) (w : World), w .os (bs "sw.js") = some s →
    (∀ l ∈ ls, ch '.' ∉ l.1) → (ls.map (·.1)).Nodup → ∀ l ∈ ls,
    ls.foldl (swLang E) w .gui (bs "sw-" ++ l.1 ++ bs ".js") = some (E.minify (bs "js") (replaceAll s (bs "main.html") l.2.2))
  | [], _, _, _, _, l, h => by simp at h
  | k :: ks, w, hs, hd, hn, l, h => by
    rw [List.foldl_cons]
    by_cases hk : l = k
    · subst hk
      rw [sw_gui_other E ks _ _ fun y hy => ⟨hd y (by simp [hy]), fun g => ?_⟩]
      · simp only [swLang]
        rw [compress_self, put_same, get_snd, hs]; rfl
      · rw [sw_eq, stem_of _ _ (dot_sw _ (hd l (by simp)))] at g
        have := List.append_cancel_left g
        exact (List.nodup_cons.1 hn).1 (by
          show l.1 ∈ _; rw [this]; exact List.mem_map_of_mem (f := fun x : Bytes × Bytes × Bytes => x.1) hy)
    · refine sw_at E s ks _ ?_ (fun y hy => hd y (by simp [hy])) (List.nodup_cons.1 hn).2 l (by simpa [hk] using h)
      simp only [swLang]
      rw [compress_other _ _ _ _ _ _ (.inl (by decide)), put_other _ _ _ _ _ _ (.inl (by decide)), get_some _ _ _ _ _ _ hs]

theorem readyStyles_gui_other (E : Env) (scripts names : List Bytes) (dirs : List (Bytes × List (Bytes × Bytes))) (w : World) (m : Bytes)
    (h : m ∉ scripts) : readyStyles E scripts names dirs w .gui m = w .gui m := by
  unfold readyStyles
  have k2 : ∀ (ds : List (Bytes × List (Bytes × Bytes))) (u : World), ds.foldl (styleDir E scripts) u .gui m = u .gui m := by
    intro ds
    induction ds with
    | nil => intro u; rfl
    | cons x ds ih => intro u; rw [List.foldl_cons, ih, styleDir, style_other E scripts u _ _ _ _ _ (by decide) (.inr h)]
  have k1 : ∀ (ns : List Bytes) (u : World), ns.foldl (styleFile E scripts) u .gui m = u .gui m := by
    intro ns
    induction ns with
    | nil => intro u; rfl
    | cons x ns ih =>
      intro u; rw [List.foldl_cons, ih, styleFile]
      split
      · rw [style_other E scripts u _ _ _ _ _ (by decide) (.inr h)]
      · rfl
  rw [k2, k1]

/-- C133: the page that is served for a language is also in the directory under a name made from the checksum of its contents, and the service
worker of the language is the common one with `main.html` replaced by that name, minified. -/
theorem C133_worker (E : Env) (landings styles : List Bytes) (dirs : List (Bytes × List (Bytes × Bytes))) (w w' : World)
    (h : update E landings styles dirs w = some w') (ls : List Bytes)
    (hls : (E.langs ((w .gui (bs "main.json")).getD [])).map (·.1) = ls) (hdots : ∀ l ∈ ls, ch '.' ∉ l) (hn : ls.Nodup) (l : Bytes)
    (hl : l ∈ ls) : ∃ page, w' .mainHTML l = some page ∧ w' .gui (hashed E (bs "main-" ++ l) (bs "html") page) = some page ∧
      ∀ s, w .os (bs "sw.js") = some s → w' .gui (bs "sw-" ++ l ++ bs ".js") =
        some (E.minify (bs "js") (replaceAll s (bs "main.html") (hashed E (bs "main-" ++ l) (bs "html") page))) := by
  simp only [update, Option.map_eq_some_iff] at h
  obtain ⟨w1, h1, h2⟩ := h
  have hg : ∀ m, w1 .gui m = w .gui m := fun m => readyLandings_gui E .gui (by decide) m landings w w1 h1
  have ho : ∀ m, w1 .os m = w .os m := fun m => readyLandings_gui E .os (by decide) m landings w w1 h1
  have hlj : (((w1.get .landings (bs "main.html")).1.get .gui (bs "main.js")).1.get .gui (bs "main.json")).2 =
      (w .gui (bs "main.json")).getD [] := by
    rw [get_snd, get_other _ _ _ _ _ (.inr (by decide)), get_other _ _ _ _ _ (.inl (by decide)), hg]
  simp only [readyAppJS, hlj, hls] at h2
  obtain ⟨w2, hw2⟩ : ∃ w2, (((w1.get .landings (bs "main.html")).1.get .gui (bs "main.js")).1.get .gui (bs "main.json")).1 = w2 := ⟨_, rfl⟩
  rw [hw2] at h2
  have ho2 : ∀ m, w2 .os m = w .os m := by
    intro m
    rw [← hw2, get_other _ _ _ _ _ (.inl (by decide)), get_other _ _ _ _ _ (.inl (by decide)), get_other _ _ _ _ _ (.inl (by decide)), ho]
  have ho3 : ∀ (ls : List Bytes) (u : World) m, (appLangs E u ls).1 .os m = u .os m := by
    intro ls
    induction ls with
    | nil => intro u m; rfl
    | cons a ls ih => intro u m; simp only [appLangs]; rw [ih, appLang_dir_other E u a m _ (by decide) (by decide)]
  rw [(appLangs_names E ls w2).1] at h2
  obtain ⟨x, hx, hxl⟩ : ∃ x ∈ (appLangs E w2 ls).2, x.1 = l := by
    have := (appLangs_names E ls w2).2
    rw [← this] at hl
    obtain ⟨x, hx, hxl⟩ := List.mem_map.1 hl
    exact ⟨x, hx, hxl⟩
  obtain ⟨e1, e2⟩ := appLangs_html E ls w2 hdots hn x hx
  obtain ⟨page, hp⟩ : ∃ page, (appLangs E w2 ls).1 .mainHTML l = some page := by
    obtain ⟨ls1, ls2, rfl⟩ := List.append_of_mem hl
    obtain ⟨v, -, -, v3⟩ := appLangs_at E ls1 ls2 l hdots hn w2
    rw [v3]
    exact ⟨_, by simp only [appLang]; exact put_same _ _ _ _⟩
  rw [hxl] at e1 e2
  rw [hp] at e1 e2
  rw [Option.getD_some] at e1
  have nin : ∀ m, (∀ l ∈ ls, m ≠ scriptName E l) → m ∉ ls.map (scriptName E) := fun m hm g => by
    obtain ⟨y, hy, he⟩ := List.mem_map.1 g
    exact hm y hy he.symm
  have hdx : ∀ y ∈ (appLangs E w2 ls).2, ch '.' ∉ y.1 := fun y hy => hdots y.1 (by
    rw [← (appLangs_names E ls w2).2]; exact List.mem_map_of_mem hy)
  have hst : stem (hashed E (bs "main-" ++ l) (bs "html") page) = bs "main-" ++ l := stem_hashed _ _ _ _ (dot_main l (hdots l hl))
  refine ⟨page, ?_, ?_, fun s hs => ?_⟩
  · rw [← h2, readyStyles_other E _ _ _ _ _ _ (by decide) (by decide), sw_other E _ (by decide) (by decide), hp]
  · rw [← h2, readyStyles_gui_other E _ _ _ _ _ (nin _ fun y _ g => ?_), sw_gui_other E _ _ _ fun y hy => ⟨hdx y hy, fun g => ?_⟩, ← e1, e2]
    · rw [hst] at g
      have := congrArg (List.head? ·) g
      simp [show bs "main-" = [ch 'm', ch 'a', ch 'i', ch 'n', ch '-'] by decide, show bs "sw-" = [ch 's', ch 'w', ch '-'] by decide] at this
      exact absurd this (by decide)
    · have := congrArg extension g
      rw [ext_hashed _ _ _ _ dot_html, show extension (scriptName E y) = bs "js" from ext_hashed _ _ _ _ dot_js] at this
      exact absurd this (by decide)
  · rw [← h2, readyStyles_gui_other E _ _ _ _ _ (nin _ fun y hy g => ?_), ← e1]
    · have := sw_at E s (appLangs E w2 ls).2 (appLangs E w2 ls).1 (by rw [ho3, ho2, hs]) hdx (by rw [(appLangs_names E ls w2).2]; exact hn) x hx
      rw [hxl] at this
      exact this
    · have := congrArg stem g
      rw [sw_eq, stem_of _ _ (dot_sw l (hdots l hl)), show stem (scriptName E y) = _ from stem_hashed _ _ _ _ (dot_main y (hdots y hy))] at this
      have := congrArg (List.head? ·) this
      simp [show bs "main-" = [ch 'm', ch 'a', ch 'i', ch 'n', ch '-'] by decide, show bs "sw-" = [ch 's', ch 'w', ch '-'] by decide] at this
      exact absurd this (by decide)

/-! ### Style sheets -/

/-- One style sheet: what is left in the directory. -/
theorem style_dir (E : Env) (scripts : List Bytes) (w : World) (name temp data m : Bytes) :
    style E scripts w name temp data .designLanguages m =
      (compress E ((w.put .designLanguages temp (E.minify (bs "css") data)).move .designLanguages temp
        (hashName E temp (E.minify (bs "css") data))) .designLanguages (hashName E temp (E.minify (bs "css") data))).1 .designLanguages m := by
  simp only [style]
  rw [scripts_other _ _ _ _ _ _ (.inl (by decide))]

/-- C133: a style sheet is served, minified, under a name made from the checksum of what is served, and every script that names the sheet once
names it so afterwards. Missing: sheets of which the name is the end of the name of another, and scripts read through their compressed form. -/
theorem C133_style_partial (E : Env) (scripts : List Bytes) (hn : scripts.Nodup) (w : World) (a css : Bytes)
    (hc : w .designLanguages (a ++ bs ".css") = some css) :
    let served := hashed E (bs "h-" ++ a) (bs "css") (E.minify (bs "css") css)
    styleFile E scripts w (a ++ bs ".css") .designLanguages served = some (E.minify (bs "css") css) ∧
      ∀ s ∈ scripts, ∀ x y, w .gui s = some (x ++ (a ++ bs ".css") ++ y) → indexOf (x ++ (a ++ bs ".css") ++ y) (a ++ bs ".css") = some x.length →
        ¬ (a ++ bs ".css") <:+: y → styleFile E scripts w (a ++ bs ".css") .gui s = some (x ++ served ++ y) := by
  have e : a ++ bs ".css" = a ++ ch '.' :: bs "css" := by rw [show bs ".css" = ch '.' :: bs "css" by decide]
  have e2 : bs "h-" ++ (a ++ bs ".css") = (bs "h-" ++ a) ++ ch '.' :: bs "css" := by rw [e, List.append_assoc]
  have hx : extension (a ++ bs ".css") = bs "css" := by rw [e, ext_of _ _ dot_css]
  intro served
  simp only [styleFile]
  rw [if_pos hx, hc, Option.getD_some]
  constructor
  · rw [style_dir, e2, hashName_hashed _ _ _ _ dot_css]
    show (compress E _ _ served).1 _ served = _
    rw [compress_self]
    exact (move_same _ _ _ _).trans (put_same _ _ _ _)
  · intro s hs x y hw hi hy
    rw [style_script E scripts w _ _ _ _ hn hs, hw, Option.getD_some, e2, hashName_hashed _ _ _ _ dot_css]
    rw [replaceAll, replaceAllLoop, hi]
    simp only []
    rw [List.append_assoc x, List.take_left' rfl, ← List.append_assoc x, List.drop_left' (by simp), replaceAllLoop_none _ _ _ hy]

def dots (n : Bytes) : Nat := n.count (ch '.')

theorem dots_hashed (E : Env) (a e data : Bytes) : dots (hashed E a e data) = dots a + 2 + dots e := by
  have h0 : (decDigits (E.crc data).toNat).count (ch '.') = 0 := by
    rw [List.count_eq_zero]
    intro h
    have := decDigits_allDigits _ _ h
    revert this; decide
  simp only [hashed, dots, List.count_append, h0, List.count_cons_self, show (bs ".-").count (ch '.') = 1 by decide]
  omega

/-- The style sheets that reloads make of `a.css`: without the ending, and what each holds. -/
def reloadStem (E : Env) (a css : Bytes) : Nat → Bytes
  | 0 => a
  | k + 1 => bs "h-" ++ reloadStem E a css k ++ bs ".-" ++ decDigits (E.crc (Nat.repeat (E.minify (bs "css")) (k + 1) css)).toNat

/-- C133 violated for reloads: the sheets made by one pass are style sheets in the same directory, so the next pass makes sheets of them:
from one sheet, `r` passes over the sheets there leave at least `r + 1` of them, all with different names. -/
theorem C133_reload_violated (E : Env) (hE : EncsOk E) (scripts : List Bytes) (a css : Bytes) (w : Nat → World)
    (h0 : w 0 .designLanguages (a ++ bs ".css") = some css)
    (hs : ∀ r, w (r + 1) = readyStyles E scripts ((List.range (r + 1)).map fun j => reloadStem E a css j ++ bs ".css") [] (w r)) :
    (∀ r j, j ≤ r → w r .designLanguages (reloadStem E a css j ++ bs ".css") = some (Nat.repeat (E.minify (bs "css")) j css)) ∧
      ∀ i j, reloadStem E a css i ++ bs ".css" = reloadStem E a css j ++ bs ".css" → i = j := by
  have ec : bs ".css" = ch '.' :: bs "css" := by decide
  have hdot : ∀ j, dots (reloadStem E a css j) = dots a + j := by
    intro j
    induction j with
    | zero => rfl
    | succ j ih =>
      have h0 : (decDigits (E.crc (Nat.repeat (E.minify (bs "css")) (j + 1) css)).toNat).count (ch '.') = 0 := by
        rw [List.count_eq_zero]
        intro h
        have := decDigits_allDigits _ _ h
        revert this; decide
      simp only [dots] at ih
      simp only [reloadStem, dots, List.count_append, h0, ih, show (bs ".-").count (ch '.') = 1 by decide, show (bs "h-").count (ch '.') = 0 by decide]
      omega
  have hinj : ∀ i j, reloadStem E a css i ++ bs ".css" = reloadStem E a css j ++ bs ".css" → i = j := by
    intro i j h
    have := congrArg dots (List.append_cancel_right h)
    rw [hdot, hdot] at this
    omega
  refine ⟨?_, hinj⟩
  have hnext : ∀ j, hashName E (bs "h-" ++ (reloadStem E a css j ++ bs ".css")) (Nat.repeat (E.minify (bs "css")) (j + 1) css) =
      reloadStem E a css (j + 1) ++ bs ".css" := by
    intro j
    rw [ec, ← List.append_assoc, hashName_hashed _ _ _ _ dot_css, hashed, reloadStem]
  -- one sheet of the chain
  have one : ∀ (u : World) (j : Nat), u .designLanguages (reloadStem E a css j ++ bs ".css") = some (Nat.repeat (E.minify (bs "css")) j css) →
      (styleFile E scripts u (reloadStem E a css j ++ bs ".css") .designLanguages (reloadStem E a css (j + 1) ++ bs ".css") =
        some (Nat.repeat (E.minify (bs "css")) (j + 1) css)) ∧
      ∀ i, u .designLanguages (reloadStem E a css i ++ bs ".css") = some (Nat.repeat (E.minify (bs "css")) i css) →
        styleFile E scripts u (reloadStem E a css j ++ bs ".css") .designLanguages (reloadStem E a css i ++ bs ".css") =
          some (Nat.repeat (E.minify (bs "css")) i css) := by
    intro u j hu
    have hx : extension (reloadStem E a css j ++ bs ".css") = bs "css" := by rw [ec, ext_of _ _ dot_css]
    have hc : E.minify (bs "css") (Nat.repeat (E.minify (bs "css")) j css) = Nat.repeat (E.minify (bs "css")) (j + 1) css := rfl
    simp only [styleFile]
    rw [if_pos hx, hu, Option.getD_some]
    have same : style E scripts u (reloadStem E a css j ++ bs ".css") (bs "h-" ++ (reloadStem E a css j ++ bs ".css"))
        (Nat.repeat (E.minify (bs "css")) j css) .designLanguages (reloadStem E a css (j + 1) ++ bs ".css") =
        some (Nat.repeat (E.minify (bs "css")) (j + 1) css) := by
      rw [style_dir, hc, hnext, compress_self, move_same, put_same]
    refine ⟨same, fun i hi => ?_⟩
    by_cases hij : i = j + 1
    · subst hij; exact same
    · rw [style_dir, hc, hnext, compress_other _ _ _ _ _ _ (.inr fun e f he g => ?_)]
      · have n1 : reloadStem E a css i ++ bs ".css" ≠ bs "h-" ++ (reloadStem E a css j ++ bs ".css") := by
          intro g
          rw [← List.append_assoc] at g
          have g' := List.append_cancel_right g
          have d := congrArg dots g'
          rw [hdot] at d
          have d2 := hdot j
          simp only [dots, List.count_append, show (bs "h-").count (ch '.') = 0 by decide] at d2 d
          have : i = j := by omega
          subst this
          have := congrArg List.length g'
          simp [show (bs "h-").length = 2 by decide] at this
        rw [move_other _ _ _ _ _ _ (.inr ⟨n1, fun g => hij (hinj _ _ g)⟩), put_other _ _ _ _ _ _ (.inr n1), hi]
      · have := congrArg extension g
        rw [ext_of _ _ (hE e f he).1, ec, ext_of _ _ dot_css] at this
        exact (hE e f he).2.2.2 this.symm
  -- one pass
  have pass : ∀ (l : List Nat) (u : World), (∀ j ∈ l, u .designLanguages (reloadStem E a css j ++ bs ".css") = some (Nat.repeat (E.minify (bs "css")) j css)) →
      (∀ i, (u .designLanguages (reloadStem E a css i ++ bs ".css") = some (Nat.repeat (E.minify (bs "css")) i css) ∨ ∃ j ∈ l, i = j + 1) →
        (l.map fun j => reloadStem E a css j ++ bs ".css").foldl (styleFile E scripts) u .designLanguages (reloadStem E a css i ++ bs ".css") =
          some (Nat.repeat (E.minify (bs "css")) i css)) := by
    intro l
    induction l with
    | nil => intro u _ i hi; rcases hi with hi | ⟨j, hj, _⟩
             · exact hi
             · simp at hj
    | cons k l ih =>
      intro u hu i hi
      rw [List.map_cons, List.foldl_cons]
      have o := one u k (hu k (by simp))
      refine ih _ (fun j hj => o.2 j (hu j (by simp [hj]))) i ?_
      rcases hi with hi | ⟨j, hj, rfl⟩
      · exact .inl (o.2 i hi)
      · rcases List.mem_cons.1 hj with rfl | hj
        · exact .inl o.1
        · exact .inr ⟨j, hj, rfl⟩
  intro r
  induction r with
  | zero =>
    intro j hj
    have : j = 0 := by omega
    subst this; exact h0
  | succ r ih =>
    intro j hj
    rw [hs r]
    simp only [readyStyles, List.foldl_nil]
    refine pass (List.range (r + 1)) (w r) (fun i hi => ih i (by simp at hi; omega)) j ?_
    by_cases hjr : j ≤ r
    · exact .inl (ih j hjr)
    · exact .inr ⟨r, by simp, by omega⟩

/-- C133 violated for two sheets of which one name is the end of the other, such as `a.css` and `dark-a.css`: when the shorter one is taken
first, the script names neither of the files made of the longer one: what it names is `dark-` and the name of the file made of the shorter one. -/
theorem C133_substring_violated (E : Env) (s : Bytes) (w : World) (a b css1 css2 x y : Bytes)
    (h1 : w .designLanguages (a ++ bs ".css") = some css1) (_h2 : w .designLanguages (b ++ (a ++ bs ".css")) = some css2)
    (hw : w .gui s = some (x ++ (b ++ (a ++ bs ".css")) ++ y))
    (hi : indexOf (x ++ (b ++ (a ++ bs ".css")) ++ y) (a ++ bs ".css") = some (x.length + b.length)) (hy : ¬ (a ++ bs ".css") <:+: y)
    (hno : ¬ (b ++ (a ++ bs ".css")) <:+: x ++ b ++ hashed E (bs "h-" ++ a) (bs "css") (E.minify (bs "css") css1) ++ y) :
    readyStyles E [s] [a ++ bs ".css", b ++ (a ++ bs ".css")] [] w .gui s =
      some (x ++ b ++ hashed E (bs "h-" ++ a) (bs "css") (E.minify (bs "css") css1) ++ y) := by
  have e : a ++ bs ".css" = a ++ ch '.' :: bs "css" := by rw [show bs ".css" = ch '.' :: bs "css" by decide]
  have p := (C133_style_partial E [s] (by simp) w a css1 h1).2 s (by simp) (x ++ b) y (by rw [hw]; simp) (by simpa using hi) hy
  simp only [readyStyles, List.foldl_cons, List.foldl_nil]
  rw [styleFile, if_pos (by rw [e, ← List.append_assoc, ext_of _ _ dot_css])]
  exact style_stable E [s] _ _ _ _ _ _ (by simp) p hno

/-! ## C134 -/

namespace ASpec

/-- The forms of files that are compressed already. -/
def media : List Bytes := [bs "png", bs "jpg", bs "gif", bs "jpeg", bs "mkv", bs "avi", bs "mp3", bs "mp4"]

end ASpec

theorem compressLoop_at (d : Dir) (n x e : Bytes) (f : Bytes → Bytes) : ∀ (es : List (Option (Bytes × (Bytes → Bytes)))) (r : World × Bool),
    r.1 d n = some x → ((es.filterMap id).map (·.1)).Nodup → some (e, f) ∈ es → (compressLoop d n es r).1 d (n ++ ch '.' :: e) = some (f x)
  | [], _, _, _, h => by simp at h
  | none :: es, (w, b), hw, hn, h => by
    rw [compressLoop]
    exact compressLoop_at d n x e f es _ hw (by simpa using hn) (by simpa using h)
  | some (e', f') :: es, (w, b), hw, hn, h => by
    rw [compressLoop]
    have hn' : e' ∉ (es.filterMap id).map (·.1) ∧ ((es.filterMap id).map (·.1)).Nodup := by simpa using hn
    rcases List.mem_cons.1 h with h | h
    · obtain ⟨rfl, rfl⟩ : e = e' ∧ f = f' := by simpa using h
      rw [compressLoop_other d d n _ es _ (.inr fun e2 f2 h2 g => ?_)]
      · show World.put _ _ _ _ _ _ = _
        rw [put_same]
        simp only at hw
        rw [hw]; rfl
      · have : e = e2 := by simpa using List.append_cancel_left g
        subst this
        exact hn'.1 (List.mem_map.2 ⟨(e, f2), List.mem_filterMap.2 ⟨_, h2, rfl⟩, rfl⟩)
    · refine compressLoop_at d n x e f es _ ?_ hn'.2 h
      show World.put _ _ _ _ _ _ = _
      rw [put_other _ _ _ _ _ _ (.inr fun g => by have := congrArg List.length g; simp at this)]
      exact hw

theorem compressLoop_err (d : Dir) (n : Bytes) : ∀ (es : List (Option (Bytes × (Bytes → Bytes)))) (r : World × Bool),
    (compressLoop d n es r).2 = match es.getLast? with | none => r.2 | some none => true | some (some _) => false
  | [], _ => rfl
  | [none], (w, b) => rfl
  | [some (e, f)], (w, b) => rfl
  | none :: x :: es, (w, b) => by
    rw [compressLoop, compressLoop_err d n (x :: es), List.getLast?_cons_cons]
    cases h : (x :: es).getLast? with
    | none => simp at h
    | some o => cases o <;> rfl
  | some (e, f) :: x :: es, (w, b) => by
    rw [compressLoop, compressLoop_err d n (x :: es), List.getLast?_cons_cons]
    cases h : (x :: es).getLast? with
    | none => simp at h
    | some o => cases o <;> rfl

/-- C134: compressing a file leaves one file beside it for every known encoding, named after it with the ending of the encoding, and holding
the compressed contents; the file itself and all others are as they were. Nothing is done to forms that are compressed already. -/
theorem C134_compress (E : Env) (w : World) (d : Dir) (n x : Bytes) (hw : w d n = some x)
    (hn : ((E.encs.filterMap id).map (·.1)).Nodup) :
    (extension n ∉ media → ∀ e f, some (e, f) ∈ E.encs → (compress E w d n).1 d (n ++ ch '.' :: e) = some (f x)) ∧
    (∀ d' m, (d' ≠ d ∨ ∀ e f, some (e, f) ∈ E.encs → m ≠ n ++ ch '.' :: e) → (compress E w d n).1 d' m = w d' m) ∧
    (compress E w d n).1 d n = some x ∧ (extension n ∈ media → compress E w d n = (w, false)) := by
  refine ⟨fun hm e f he => ?_, fun d' m h => compress_other E w d d' n m h, by rw [compress_self, hw], fun hm => ?_⟩
  · rw [compress, if_neg (show extension n ∉ notWorth from hm)]
    exact compressLoop_at d n x e f _ _ hw hn he
  · rw [compress, if_pos (show extension n ∈ notWorth from hm)]

/-- C227: when all encodings are known there is no error. Missing: that an unknown encoding is reported, refuted below. -/
theorem C227_no_error_partial (E : Env) (w : World) (d : Dir) (n : Bytes) (h : none ∉ E.encs) : (compress E w d n).2 = false := by
  rw [compress]
  split
  · rfl
  · rw [compressLoop_err]
    cases hl : E.encs.getLast? with
    | none => rfl
    | some o =>
      cases o with
      | none => exact absurd (List.mem_of_getLast? hl) h
      | some _ => rfl

/-- C227 violated for the result: it tells only of the last encoding. Unknown encodings before a known last one are not reported, and an
unknown last one is reported as the error of the whole although the others were made. -/
theorem C227_unreported_violated (E : Env) (w : World) (d : Dir) (n : Bytes) (hm : extension n ∉ media) :
    (∀ es e f, E.encs = es ++ [some (e, f)] → (compress E w d n).2 = false) ∧
    (∀ es, E.encs = es ++ [none] → (compress E w d n).2 = true) := by
  constructor
  · intro es e f he
    rw [compress, if_neg (show extension n ∉ notWorth from hm), compressLoop_err, he]; simp
  · intro es he
    rw [compress, if_neg (show extension n ∉ notWorth from hm), compressLoop_err, he]; simp

/-! ## Examples -/

namespace Example

def E : Env where
  minify := fun _ x => x
  crc := fun x => BitVec.ofNat 32 x.length
  encs := [some (bs "gz", fun x => ch 'z' :: x)]
  langs := fun j => if j = [] then [] else [(bs "en", [])]
  script := fun _ => bs "load('a.css')"

def w : World := fun d n =>
  if d = .gui ∧ n = bs "main.json" then some (bs "{}")
  else if d = .gui ∧ n = bs "main-en.html" then some (bs "<script src='/main.js'>")
  else if d = .os ∧ n = bs "sw.js" then some (bs "cache main.html")
  else if d = .designLanguages ∧ n = bs "a.css" then some (bs "body{}")
  else none

theorem hE : EncsOk E := by
  intro e f h
  obtain ⟨rfl, -⟩ : e = bs "gz" ∧ _ := by simpa [E] using h
  decide

example : (E.langs ((w .gui (bs "main.json")).getD [])).map (·.1) = [bs "en"] := by decide
example : (bs "a" ++ bs ".css") <:+: script E (bs "en") := ⟨bs "\nload('", bs "')", by decide⟩
example : (update E [] [bs "a.css"] [] w).isSome = true := rfl
/-- The script after all: named after its 14 bytes, and now longer. -/
example : (update E [] [bs "a.css"] [] w).map (fun (v : World) => v .gui (bs "main-en.-14.js")) = some (some (bs "\nload('h-a.-6.css')")) := by decide +kernel
example : (update E [] [bs "a.css"] [] w).map (fun (v : World) => v .gui (bs "main-en.-14.js.gz")) = some (some (bs "z\nload('a.css')")) := by decide +kernel
example : (update E [] [bs "a.css"] [] w).map (fun (v : World) => v .mainHTML (bs "en")) = some (some (bs "<script src='main-en.-14.js'>")) := by decide +kernel
example : (update E [] [bs "a.css"] [] w).map (fun (v : World) => v .gui (bs "sw-en.js")) = some (some (bs "cache main-en.-29.html")) := by decide +kernel
example : E.crc (E.minify (bs "css") (bs "p{}")) ≠ E.crc (E.minify (bs "css") (bs "body{}")) := by decide
/-- A locale file `p.json` is not read, `p..json` is. -/
example : ((landing E ((w.put .landings (bs "p.html") (bs "<p>")).put .landings (bs "p.json") (bs "{}")) (bs "p.html"))).map
    (fun (v : World) => v .landings (bs "p.-en.html")) = some none := by decide +kernel
example : ((landing E (((w.put .landings (bs "p.html") (bs "<p>")).put .landings (bs "p..json") (bs "{}")).put .landings (bs "p..css") (bs "p{}"))
    (bs "p.html"))).map (fun (v : World) => v .landings (bs "p.-en.html")) = some (some (bs "<p>\n<style>p{}</style>")) := by decide +kernel
example : (compress { E with encs := [none, some (bs "br", id)] } w .designLanguages (bs "a.css")).2 = false ∧
    (compress { E with encs := [some (bs "br", id), none] } w .designLanguages (bs "a.css")).2 = true := by decide +kernel

end Example

namespace Example

/-- The parts of a page served without a page of the language. -/
def bare : World := fun d n => if d = .gui ∧ n = bs "main.json" then some (bs "{}") else none
/-- A landing page with texts and a style sheet. -/
def page : World := ((w.put .landings (bs "p.html") (bs "<p>")).put .landings (bs "p..json") (bs "{}")).put .landings (bs "p..css") (bs "p{}")
/-- A style sheet that is prepared again and again. -/
def again : Nat → World
  | 0 => w
  | r + 1 => readyStyles E [bs "main-en.-14.js"] ((List.range (r + 1)).map fun j => reloadStem E (bs "a") (bs "body{}") j ++ bs ".css") [] (again r)

example := C133_hashed_partial E hE [] [bs "b.css"] [] w _ (Option.some_get (show (update E [] [bs "b.css"] [] w).isSome from rfl)).symm
  [bs "en"] (by decide) (by decide) (by decide) (bs "en") (by decide) (by decide +kernel) (by decide)
example := C133_page_partial E hE [] [bs "a.css"] [] w _ (Option.some_get (show (update E [] [bs "a.css"] [] w).isSome from rfl)).symm
  [bs "en"] (by decide) (by decide) (by decide) (bs "en") (by decide) (bs "<script src='/main.js'>") (bs "<script src='") (bs "'>") (by decide +kernel)
  (by decide +kernel) (by decide +kernel)
example := C133_stale_violated E hE [] w _ _ (bs "a") (bs "p{}") (bs "body{}") [bs "en"] (by decide) (by decide) (by decide) (bs "en") (by decide)
  ⟨bs "\nload('", bs "')", by decide⟩ (by decide)
  (Option.some_get (show (update E [] [bs "a" ++ bs ".css"] [] (w.put .designLanguages (bs "a" ++ bs ".css") (bs "p{}"))).isSome from rfl)).symm
  (Option.some_get (show (update E [] [bs "a" ++ bs ".css"] [] (w.put .designLanguages (bs "a" ++ bs ".css") (bs "body{}"))).isSome from rfl)).symm
example := C133_compressed_stale_violated E hE (bs "gz") (fun x => ch 'z' :: x) rfl [] w _ (bs "a") (bs "body{}") [bs "en"] (by decide) (by decide)
  (by decide) (bs "en") (by decide) ⟨bs "\nload('", bs "')", by decide⟩ (by decide +kernel)
  (Option.some_get (show (update E [] [bs "a" ++ bs ".css"] [] w).isSome from rfl)).symm
example := C133_page_empty_violated E hE rfl [] [] [] bare _ (bs "<p>")
  (Option.some_get (show (update E [] [] [] (bare.put .landings (bs "main.html") (bs "<p>"))).isSome from rfl)).symm
  [bs "en"] (by decide) (by decide) (by decide) (bs "en") (by decide) (by decide +kernel)
example := C133_landing_partial E hE (bs "p") (bs "<p>") (bs "p{}") (bs "{}") page _ (by decide +kernel) (by decide +kernel) (by decide +kernel) (by decide)
  (Option.some_get (show (landing E page (bs "p" ++ bs ".html")).isSome by decide +kernel)).symm (bs "en") [] (by decide)
example := C133_landing_json_violated E rfl [bs "p.html"] (w.put .gui (bs "p.json") (bs "{}")) (fun a => by simp [w, World.put])
example := C133_worker E [] [bs "a.css"] [] w _ (Option.some_get (show (update E [] [bs "a.css"] [] w).isSome from rfl)).symm
  [bs "en"] (by decide) (by decide) (by decide) (bs "en") (by decide)
example := C133_style_partial E [bs "main-en.js"] (by decide) w (bs "a") (bs "body{}") (by decide +kernel)
example := C133_reload_violated E hE [bs "main-en.-14.js"] (bs "a") (bs "body{}") again (by decide +kernel) (fun _ => rfl)
example := C133_substring_violated E (bs "m.js") (((w.put .designLanguages (bs "ba.css") (bs "q{}"))).put .gui (bs "m.js") (bs "load('ba.css')")) (bs "a") (bs "b")
  (bs "body{}") (bs "q{}") (bs "load('") (bs "')") (by decide +kernel) (by decide +kernel) (by decide +kernel) (by decide +kernel) (by decide +kernel)
  (by decide +kernel)
example := C134_compress E w .designLanguages (bs "a.css") (bs "body{}") (by decide +kernel) (by decide)
example := C227_no_error_partial E w .designLanguages (bs "a.css") (by simp [E])

end Example

end Memar.Www.Assets
