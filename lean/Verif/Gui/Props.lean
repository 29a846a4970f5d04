import Verif.Gui.Model
import Verif.Www.Lemmas

/-!
# C148: the files of a new page and of the splash screen
-/

namespace Memar.Gui
open Memar

/-! ## Specification -/

namespace GSpec

/-- A letter of the Latin alphabet, the underscore or the dollar sign. -/
def IdentStart (b : Byte) : Prop :=
  (ch 'a' ≤ b ∧ b ≤ ch 'z') ∨ (ch 'A' ≤ b ∧ b ≤ ch 'Z') ∨ b = ch '_' ∨ b = ch '$'

/-- What may follow in a name: the same and the digits. -/
def IdentPart (b : Byte) : Prop := IdentStart b ∨ (ch '0' ≤ b ∧ b ≤ ch '9')

/-- A name of a JavaScript variable, in ASCII. -/
def Ident (s : Bytes) : Prop := ∃ b t, s = b :: t ∧ IdentStart b ∧ ∀ x ∈ t, IdentPart x

/-- The rest of the line on which the first constant of a script is declared. -/
def constLine (js : Bytes) : Option Bytes :=
  (indexOf js (bs "\nconst ")).map fun (i : Nat) => (js.drop (i + 7)).takeWhile (· != ch '\n')

/-- The script begins the declaration of an object under this name. -/
def Declares (js name : Bytes) : Prop := Ident name ∧ constLine js = some (name ++ bs " = {")

/-- What a JavaScript string in double quotes reads as, from its opening quote on; `none` for a string with an escape and for
one that is not closed on its line. -/
def readString : Bytes → Option Bytes
  | [] => none
  | q :: t => if q = ch '"' then go [] t else none
where
  go (acc : Bytes) : Bytes → Option Bytes
    | [] => none
    | b :: t =>
      if b = ch '"' then some acc else if b = ch '\\' ∨ b = ch '\n' then none else go (acc ++ [b]) t

/-- Somewhere in the script this key is followed by a string that reads as `v`. -/
def HasField (js key v : Bytes) : Prop := ∃ a b, js = a ++ (key ++ b) ∧ readString b = some v

/-- Text that stands for itself between double quotes. -/
def Plain (s : Bytes) : Prop := ch '"' ∉ s ∧ ch '\\' ∉ s ∧ ch '\n' ∉ s

end GSpec
open GSpec

/-! ## Lemmas -/

theorem indexOf_append (a b sub : Bytes) (i : Nat) (h : indexOf a sub = some i) : indexOf (a ++ b) sub = some i := by
  induction a generalizing i with
  | nil =>
    unfold indexOf at h ⊢
    by_cases hp : sub.isPrefixOf [] = true
    · rw [if_pos hp] at h
      have : sub = [] := by simpa using List.isPrefixOf_iff_prefix.mp hp
      subst this
      simpa using h
    · rw [if_neg hp] at h; cases h
  | cons x a ih =>
    unfold indexOf at h
    by_cases hp : sub.isPrefixOf (x :: a) = true
    · rw [if_pos hp] at h
      have h1 : sub <+: (x :: a) := List.isPrefixOf_iff_prefix.mp hp
      have h2 : sub.isPrefixOf ((x :: a) ++ b) = true := List.isPrefixOf_iff_prefix.mpr (h1.trans (List.prefix_append _ _))
      unfold indexOf
      rw [if_pos h2]; exact h
    · rw [if_neg hp] at h
      obtain ⟨j, hj, rfl⟩ := Option.map_eq_some_iff.mp h
      have hj' := ih j hj
      have h2 : ¬ sub.isPrefixOf ((x :: a) ++ b) = true := by
        intro hc
        have hc : sub <+: (x :: a) ++ b := List.isPrefixOf_iff_prefix.mp hc
        have hle : sub.length ≤ (x :: a).length := by
          have : ∀ (s : Bytes) (k : Nat), indexOf s sub = some k → sub.length ≤ s.length := by
            intro s
            induction s with
            | nil =>
              intro k hk
              unfold indexOf at hk
              split at hk
              · rename_i hh; exact (List.isPrefixOf_iff_prefix.mp hh).length_le
              · cases hk
            | cons y s ih2 =>
              intro k hk
              unfold indexOf at hk
              split at hk
              · rename_i hh; exact (List.isPrefixOf_iff_prefix.mp hh).length_le
              · obtain ⟨m, hm, _⟩ := Option.map_eq_some_iff.mp hk
                have := ih2 m hm
                simp; omega
          have := this a j hj
          simp; omega
        exact hp (List.isPrefixOf_iff_prefix.mpr (List.prefix_of_prefix_length_le hc (List.prefix_append _ _) hle))
      rw [List.cons_append]
      unfold indexOf
      rw [List.cons_append] at h2
      rw [if_neg h2]
      simp only [hj', Option.map_some]

/-- The script before the name of the page. -/
def head : Bytes :=
  bs "/* For license and copyright information please see the LEGAL file in the code repository */\n" ++
    (bs "\n" ++
    (bs "import 'github.com/GeniusesGroup/libjs/widget-notification/force-leave-page.js'\n" ++
    bs "\nconst page"))

theorem head_index : indexOf head (bs "\nconst ") = some 174 ∧ head.drop 181 = bs "page" ∧ head.length = 185 := by decide +kernel

theorem takeWhile_line (s r : Bytes) (h : ch '\n' ∉ s) : (s ++ ch '\n' :: r).takeWhile (· != ch '\n') = s := by
  induction s with
  | nil => simp
  | cons b s ih =>
    simp only [List.mem_cons, not_or] at h
    have hb : (b != ch '\n') = true := by simpa using Ne.symm h.1
    rw [List.cons_append, List.takeWhile_cons, if_pos hb, ih h.2]

theorem constLine_page (v r : Bytes) (hv : ch '\n' ∉ v) :
    constLine (head ++ (v ++ (bs " = {\n" ++ r))) = some (bs "page" ++ (v ++ bs " = {")) := by
  unfold constLine
  rw [indexOf_append _ _ _ _ head_index.1, Option.map_some]
  have hd : (head ++ (v ++ (bs " = {\n" ++ r))).drop 181 = (bs "page" ++ (v ++ bs " = {")) ++ ch '\n' :: r := by
    rw [List.drop_append, head_index.2.1, head_index.2.2, show 181 - 185 = 0 by decide, List.drop_zero,
      show bs " = {\n" = bs " = {" ++ [ch '\n'] by decide]
    simp only [List.append_assoc, List.singleton_append]
  rw [hd, takeWhile_line]
  simp only [List.mem_append, not_or]
  exact ⟨by decide, hv, by decide⟩

/-- The name the script is made for. -/
def nameOf (req : Request) : Bytes :=
  if req.pageVarName = [] then replaceByte (title req.scopeName) (ch '-') (ch ' ') else req.pageVarName

theorem js_of (req : Request) : (makeNewPage req).2.js = jsPageFile.flatMap (Piece.write { req with pageVarName := nameOf req }) := by
  unfold makeNewPage nameOf
  dsimp only
  split <;> rfl

theorem page_text (req : Request) :
    ∃ r, (makeNewPage req).2.js = head ++ (nameOf req ++ (bs " = {\n" ++ r)) := by
  obtain ⟨u, t, ht⟩ : ∃ u t, jsPageFile = .text head :: .pageVarName :: .text (bs " = {\n" ++ u) :: t := ⟨_, _, rfl⟩
  rw [js_of, ht]
  simp only [List.flatMap_cons, Piece.write, List.append_assoc]
  exact ⟨_, rfl⟩

/-- A field between two texts of a template. -/
theorem piece_between (ps : List Piece) (r : Request) (i : Nat) (t1 t2 x y : Bytes) (p : Piece)
    (h1 : ps[i]? = some (.text t1)) (hp : ps[i + 1]? = some p) (h2 : ps[i + 2]? = some (.text t2)) (hx : x <:+ t1)
    (hy : y <+: t2) : ∃ a b, ps.flatMap (Piece.write r) = a ++ (x ++ (p.write r ++ (y ++ b))) := by
  obtain ⟨u, rfl⟩ := hx
  obtain ⟨w, rfl⟩ := hy
  have e : ps = ps.take i ++ (.text (u ++ x) :: p :: .text (y ++ w) :: ps.drop (i + 3)) := by
    obtain ⟨l1, e1⟩ := List.getElem?_eq_some_iff.mp h1
    obtain ⟨l2, e2⟩ := List.getElem?_eq_some_iff.mp hp
    obtain ⟨l3, e3⟩ := List.getElem?_eq_some_iff.mp h2
    conv => lhs; rw [← List.take_append_drop i ps, List.drop_eq_getElem_cons l1, List.drop_eq_getElem_cons l2,
      List.drop_eq_getElem_cons l3, e1, e2, e3]
  refine ⟨(ps.take i).flatMap (Piece.write r) ++ u, w ++ (ps.drop (i + 3)).flatMap (Piece.write r), ?_⟩
  conv => lhs; rw [e]
  simp only [List.flatMap_append, List.flatMap_cons, Piece.write, List.append_assoc]

theorem readString_go (s : Bytes) (hs : Plain s) (acc r : Bytes) : readString.go acc (s ++ ch '"' :: r) = some (acc ++ s) := by
  induction s generalizing acc with
  | nil => simp [readString.go]
  | cons b s ih =>
    obtain ⟨h1, h2, h3⟩ := hs
    simp only [List.mem_cons, not_or] at h1 h2 h3
    rw [List.cons_append, readString.go, if_neg (Ne.symm h1.1),
      if_neg (by rintro (h | h); exact h2.1 h.symm; exact h3.1 h.symm), ih ⟨h1.2, h2.2, h3.2⟩]
    simp

theorem readString_plain (s : Bytes) (hs : Plain s) (r : Bytes) : readString (ch '"' :: (s ++ ch '"' :: r)) = some s := by
  rw [readString, if_pos rfl, readString_go s hs]; rfl

/-- What stands between the quote and the first quote of the text. -/
theorem readString_cut (s t r : Bytes) (hs : Plain s) : readString (ch '"' :: (s ++ ch '"' :: (t ++ r))) = some s :=
  readString_plain s hs _

theorem titleFrom_newline (p : Byte) (s : Bytes) (h : ch '\n' ∉ s) : ch '\n' ∉ titleFrom p s := by
  induction s generalizing p with
  | nil => simp [titleFrom]
  | cons b s ih =>
    simp only [List.mem_cons, not_or] at h
    simp only [titleFrom, List.mem_cons, not_or]
    refine ⟨?_, ih b h.2⟩
    split
    · exact h.1
    · have : ∀ b : Byte, ch '\n' ≠ b → ch '\n' ≠ upperByte b := by decide +kernel
      exact this b h.1

theorem replace_newline (s : Bytes) (h : ch '\n' ∉ s) : ch '\n' ∉ replaceByte s (ch '-') (ch ' ') := by
  intro hm
  obtain ⟨b, hb, he⟩ := List.mem_map.mp hm
  split at he
  · revert he; decide
  · exact h (he ▸ hb)

theorem titleFrom_hyphen (p : Byte) (s : Bytes) (h : ch '-' ∈ s) : ch '-' ∈ titleFrom p s := by
  induction s generalizing p with
  | nil => cases h
  | cons b s ih =>
    rcases List.mem_cons.mp h with h | h
    · subst h
      refine List.mem_cons.mpr (.inl ?_)
      split
      · rfl
      · decide
    · exact List.mem_cons.mpr (.inr (ih b h))

theorem ident_no_space (s : Bytes) (h : Ident s) : ch ' ' ∉ s := by
  obtain ⟨b, t, rfl, hb, ht⟩ := h
  intro hm
  rcases List.mem_cons.mp hm with hm | hm
  · subst hm; revert hb; unfold IdentStart; decide
  · have := ht _ hm; revert this; unfold IdentPart IdentStart; decide

theorem ident_page (v : Bytes) (h : ∀ x ∈ v, IdentPart x) : Ident (bs "page" ++ v) := by
  refine ⟨ch 'p', bs "age" ++ v, by rw [show bs "page" = ch 'p' :: bs "age" by decide]; rfl,
    by unfold IdentStart; decide, ?_⟩
  intro x hx
  rcases List.mem_append.mp hx with hx | hx
  · have : ∀ x ∈ bs "age", IdentPart x := by
      intro x hx
      rw [show bs "age" = [ch 'a', ch 'g', ch 'e'] by decide] at hx
      simp only [List.mem_cons, List.not_mem_nil, or_false] at hx
      rcases hx with rfl | rfl | rfl <;> (unfold IdentPart IdentStart; decide)
    exact this x hx
  · exact h x hx

theorem part_newline (v : Bytes) (h : ∀ x ∈ v, IdentPart x) : ch '\n' ∉ v := by
  intro hm; have := h _ hm; revert this; unfold IdentPart IdentStart; decide

/-! ## C148 -/

/-- **C269** (partial: for the names that are part of a JavaScript name): a page with a chosen name is declared under `page` and
that name, and registered and given its methods under the same name.
Missing: other names (refuted: `C269_chosen_name_violated`). -/
theorem C269_chosen_name_partial (req : Request) (hne : req.pageVarName ≠ []) (hv : ∀ x ∈ req.pageVarName, IdentPart x) :
    let name := bs "page" ++ req.pageVarName
    let js := (makeNewPage req).2.js
    Declares js name ∧
      bs "Application.RegisterPage(" ++ (name ++ bs ")\n") <:+: js ∧
      bs "\n" ++ (name ++ bs ".ActivatePage = async function (state) {\n") <:+: js ∧
      bs "\n" ++ (name ++ bs ".DeactivatePage = async function () {\n") <:+: js ∧
      bs "\n" ++ (name ++ bs ".OtherAction = async function () {}\n") <:+: js := by
  intro name js
  have hn : nameOf req = req.pageVarName := if_neg hne
  refine ⟨⟨ident_page _ hv, ?_⟩, ?_⟩
  · obtain ⟨r, hr⟩ := page_text req
    show constLine (makeNewPage req).2.js = _
    rw [hr, hn, constLine_page _ _ (part_newline _ hv)]
    simp only [name, List.append_assoc]
  · have hjs : js = jsPageFile.flatMap (Piece.write { req with pageVarName := nameOf req }) := js_of req
    rw [hjs]
    have fin : ∀ (k x y : Bytes) (full : Bytes), (∃ a b, full = a ++ (k ++ (nameOf req ++ (y ++ b)))) →
        k = x ++ bs "page" → x ++ (name ++ y) <:+: full := by
      rintro k x y full ⟨a, b, rfl⟩ rfl
      exact ⟨a, b, by simp only [name, hn, List.append_assoc]⟩
    have two : ∀ x y z : Bytes, x <:+ y → x <:+ z ++ y := fun _ _ _ h => h.trans (List.suffix_append _ _)
    refine ⟨?_, ?_, ?_, ?_⟩
    · exact fin _ _ _ _ (piece_between jsPageFile _ 12 _ _ (bs "Application.RegisterPage(page") (bs ")\n") .pageVarName rfl rfl rfl
        (by repeat (first | exact List.suffix_rfl | apply two)) (List.prefix_append _ _)) (by decide +kernel)
    · exact fin _ _ _ _ (piece_between jsPageFile _ 14 _ _ (bs "\npage") (bs ".ActivatePage = async function (state) {\n")
        .pageVarName rfl rfl rfl (by repeat (first | exact List.suffix_rfl | apply two)) (List.prefix_append _ _)) (by decide +kernel)
    · exact fin _ _ _ _ (piece_between jsPageFile _ 16 _ _ (bs "\npage") (bs ".DeactivatePage = async function () {\n")
        .pageVarName rfl rfl rfl (by repeat (first | exact List.suffix_rfl | apply two)) (List.prefix_append _ _)) (by decide +kernel)
    · exact fin _ _ _ _ (piece_between jsPageFile _ 18 _ _ (bs "\npage") (bs ".OtherAction = async function () {}\n")
        .pageVarName rfl rfl rfl (by repeat (first | exact List.suffix_rfl | apply two)) List.prefix_rfl) (by decide +kernel)

example : (∀ x ∈ bs "Order2", IdentPart x) ∧ bs "Order2" ≠ [] := by
  rw [show bs "Order2" = [ch 'O', ch 'r', ch 'd', ch 'e', ch 'r', ch '2'] by decide]
  refine ⟨?_, by simp⟩
  simp only [List.forall_mem_cons]
  refine ⟨?_, ?_, ?_, ?_, ?_, ?_, by simp⟩ <;> (unfold IdentPart IdentStart; decide)

/-- Letters and digits, for a scope of one word. -/
theorem title_word (s : Bytes) (p : Byte) (hp : wordByte p = true) (h : ∀ x ∈ s, wordByte x = true) : titleFrom p s = s := by
  induction s generalizing p with
  | nil => rfl
  | cons b s ih =>
    rw [titleFrom, if_pos hp, ih b (h b (by simp)) (fun x hx => h x (by simp [hx]))]

theorem identPart_word : ∀ b : Byte, ((ch 'a' ≤ b ∧ b ≤ ch 'z') ∨ (ch 'A' ≤ b ∧ b ≤ ch 'Z') ∨ (ch '0' ≤ b ∧ b ≤ ch '9') ∨ b = ch '_') →
    wordByte b = true ∧ b ≠ ch '-' ∧ upperByte b ≠ ch '-' ∧
      ((ch 'a' ≤ upperByte b ∧ upperByte b ≤ ch 'z') ∨ (ch 'A' ≤ upperByte b ∧ upperByte b ≤ ch 'Z') ∨
        (ch '0' ≤ upperByte b ∧ upperByte b ≤ ch '9') ∨ upperByte b = ch '_') := by decide +kernel

/-- **C269** (partial: for a scope of one word): without a chosen name the page is declared under `page` and the name of the
scope with its first letter in upper case.
Missing: scopes with a hyphen (refuted: `C269_hyphen_violated`), and a request used again (refuted: `C269_reused_request_violated`). -/
theorem C269_default_name_partial (req : Request) (b : Byte) (t : Bytes) (h0 : req.pageVarName = []) (hs : req.scopeName = b :: t)
    (hw : ∀ x ∈ b :: t, (ch 'a' ≤ x ∧ x ≤ ch 'z') ∨ (ch 'A' ≤ x ∧ x ≤ ch 'Z') ∨ (ch '0' ≤ x ∧ x ≤ ch '9') ∨ x = ch '_') :
    Declares (makeNewPage req).2.js (bs "page" ++ ((if ch 'a' ≤ b ∧ b ≤ ch 'z' then b - 32 else b) :: t)) := by
  have hrep : ∀ u : Bytes, (∀ x ∈ u, x ≠ ch '-') → replaceByte u (ch '-') (ch ' ') = u := by
    intro u hu
    unfold replaceByte
    conv => rhs; rw [← List.map_id u]
    exact List.map_congr_left fun x hx => if_neg (hu x hx)
  have hn : nameOf req = upperByte b :: t := by
    rw [nameOf, if_pos h0, hs, title, titleFrom, if_neg (by decide),
      title_word t b (identPart_word b (hw b (by simp))).1 (fun x hx => (identPart_word x (hw x (by simp [hx]))).1)]
    refine hrep _ fun x hx => ?_
    rcases List.mem_cons.mp hx with rfl | hx
    · exact (identPart_word b (hw b (by simp))).2.2.1
    · exact (identPart_word x (hw x (by simp [hx]))).2.1
  have hpart : ∀ x ∈ upperByte b :: t, IdentPart x := by
    have conv : ∀ x : Byte, ((ch 'a' ≤ x ∧ x ≤ ch 'z') ∨ (ch 'A' ≤ x ∧ x ≤ ch 'Z') ∨ (ch '0' ≤ x ∧ x ≤ ch '9') ∨ x = ch '_') →
        IdentPart x := by
      rintro x (h | h | h | h)
      · exact .inl (.inl h)
      · exact .inl (.inr (.inl h))
      · exact .inr h
      · exact .inl (.inr (.inr (.inl h)))
    intro x hx
    rcases List.mem_cons.mp hx with rfl | hx
    · exact conv _ (identPart_word b (hw b (by simp))).2.2.2
    · exact conv _ (hw x (by simp [hx]))
  refine ⟨ident_page _ hpart, ?_⟩
  obtain ⟨r, hr⟩ := page_text req
  rw [hr, hn, constLine_page _ _ (part_newline _ hpart)]
  simp only [upperByte, List.append_assoc]

example : (title (bs "user-profile"), nameOf ⟨bs "a.b", bs "order", []⟩) = (bs "User-Profile", bs "Order") := by decide +kernel

/-- **C269** violated for scopes of several words: a scope with a hyphen, as the scopes of this project are written, gives a
name with a space, so that the script declares nothing: it is not a JavaScript program. -/
theorem C269_hyphen_violated (req : Request) (h0 : req.pageVarName = []) (hh : ch '-' ∈ req.scopeName)
    (hl : ch '\n' ∉ req.scopeName) : ¬ ∃ name, Declares (makeNewPage req).2.js name := by
  rintro ⟨name, hid, hc⟩
  have hn : nameOf req = replaceByte (title req.scopeName) (ch '-') (ch ' ') := if_pos h0
  have hsp : ch ' ' ∈ nameOf req := by
    rw [hn]
    refine List.mem_map.mpr ⟨ch '-', titleFrom_hyphen _ _ hh, if_pos rfl⟩
  have hnl : ch '\n' ∉ nameOf req := by rw [hn]; exact replace_newline _ (titleFrom_newline _ _ hl)
  obtain ⟨r, hr⟩ := page_text req
  rw [hr, constLine_page _ _ hnl, Option.some.injEq, ← List.append_assoc] at hc
  have := List.append_cancel_right hc
  exact ident_no_space name hid (this ▸ List.mem_append_right _ hsp)

example : nameOf ⟨bs "a.b", bs "user-profile", []⟩ = bs "User Profile" := by decide +kernel

/-- **C269** violated for chosen names: nor is it checked that a chosen name can be part of a JavaScript name. -/
theorem C269_chosen_name_violated (req : Request) (x : Byte) (hx : x ∈ req.pageVarName) (hbad : ¬ IdentPart x)
    (hl : ch '\n' ∉ req.pageVarName) : ¬ ∃ name, Declares (makeNewPage req).2.js name := by
  rintro ⟨name, hid, hc⟩
  have hne : req.pageVarName ≠ [] := by intro h; rw [h] at hx; cases hx
  have hn : nameOf req = req.pageVarName := if_neg hne
  obtain ⟨r, hr⟩ := page_text req
  rw [hr, hn, constLine_page _ _ hl, Option.some.injEq, ← List.append_assoc] at hc
  have he := List.append_cancel_right hc
  obtain ⟨b, t, rfl, hb, ht⟩ := hid
  have hm : x ∈ b :: t := he ▸ List.mem_append_right _ hx
  rcases List.mem_cons.mp hm with rfl | hm
  · exact hbad (.inl hb)
  · exact hbad (ht x hm)

example : ¬ IdentPart (ch '-') := by unfold IdentPart IdentStart; decide

theorem field_at (req : Request) (i : Nat) (t1 t2 k key : Bytes) (p : Piece) (s : Bytes) (e1 : jsPageFile[i]? = some (.text t1))
    (ep : jsPageFile[i + 1]? = some p) (e2 : jsPageFile[i + 2]? = some (.text t2)) (hx : k <:+ t1) (hy : bs "\",\n" <+: t2)
    (hk : k = key ++ [ch '"']) (hp : p.write { req with pageVarName := nameOf req } = s) :
    ∃ a b, (makeNewPage req).2.js = a ++ (key ++ (ch '"' :: (s ++ ch '"' :: b))) := by
  obtain ⟨a, b, h⟩ := piece_between jsPageFile { req with pageVarName := nameOf req } i t1 t2 k (bs "\",\n") p e1 ep e2 hx hy
  refine ⟨a, bs ",\n" ++ b, ?_⟩
  rw [js_of, h, hp, hk, show bs "\",\n" = ch '"' :: bs ",\n" by decide]
  simp only [List.append_assoc, List.cons_append, List.nil_append]

/-- **C269** (partial: for domains and scopes without a quote, a backslash or a line break): the script names the domain and
the scope of the page, and its icon, as they were asked for.
Missing: fields with a quote (refuted: `C269_quote_violated`). -/
theorem C269_fields_partial (req : Request) (hd : Plain req.domain) (hs : Plain req.scopeName) :
    let js := (makeNewPage req).2.js
    HasField js (bs "        Domain: ") req.domain ∧ HasField js (bs "\t\tName: ") req.scopeName ∧
      HasField js (bs "    Icon: ") req.scopeName := by
  intro js
  have two : ∀ x y z : Bytes, x <:+ y → x <:+ z ++ y := fun _ _ _ h => h.trans (List.suffix_append _ _)
  refine ⟨?_, ?_, ?_⟩
  · obtain ⟨a, b, h⟩ := field_at req 6 _ _ (bs "        Domain: \"") (bs "        Domain: ") .domain req.domain rfl rfl rfl
      (by repeat (first | exact List.suffix_rfl | apply two)) (List.prefix_append _ _) (by decide +kernel) rfl
    exact ⟨a, _, h, readString_plain _ hd _⟩
  · obtain ⟨a, b, h⟩ := field_at req 8 _ _ (bs "\t\tName: \"") (bs "\t\tName: ") .scopeName req.scopeName rfl rfl rfl
      (by repeat (first | exact List.suffix_rfl | apply two)) (List.prefix_append _ _) (by decide +kernel) rfl
    exact ⟨a, _, h, readString_plain _ hs _⟩
  · obtain ⟨a, b, h⟩ := field_at req 10 _ _ (bs "    Icon: \"") (bs "    Icon: ") .scopeName req.scopeName rfl rfl rfl
      (by repeat (first | exact List.suffix_rfl | apply two)) (List.prefix_append _ _) (by decide +kernel) rfl
    exact ⟨a, _, h, readString_plain _ hs _⟩

example := C269_fields_partial ⟨bs "geniuses.group", bs "order-list", []⟩ (by unfold Plain; decide +kernel) (by unfold Plain; decide +kernel)

/-- **C269** (partial: for domains and scopes without a quote, a backslash or a line break): the identifier of the page is made
of both.
Missing: fields with a quote (refuted: `C269_quote_violated`). -/
theorem C269_urn_partial (req : Request) (hd : Plain req.domain) (hs : Plain req.scopeName) :
    HasField (makeNewPage req).2.js (bs "\t\tURN: ") (bs "domain/" ++ (req.domain ++ (bs ":page:" ++ req.scopeName))) := by
  obtain ⟨u, v, w, t, ht⟩ : ∃ u v w t, jsPageFile = .text head :: .pageVarName ::
      .text (u ++ (v ++ bs "\t\tURN: \"domain/")) :: .domain :: .text (bs ":page:") :: .scopeName ::
      .text (bs "\",\n" ++ w) :: t := ⟨_, _, _, _, rfl⟩
  have hp : Plain (bs "domain/" ++ (req.domain ++ (bs ":page:" ++ req.scopeName))) := by
    obtain ⟨d1, d2, d3⟩ := hd
    obtain ⟨s1, s2, s3⟩ := hs
    refine ⟨?_, ?_, ?_⟩ <;> simp only [List.mem_append, not_or]
    · exact ⟨by decide, d1, by decide, s1⟩
    · exact ⟨by decide, d2, by decide, s2⟩
    · exact ⟨by decide, d3, by decide, s3⟩
  refine ⟨head ++ (nameOf req ++ (u ++ v)), ch '"' :: ((bs "domain/" ++ (req.domain ++ (bs ":page:" ++ req.scopeName))) ++
    ch '"' :: (bs ",\n" ++ (w ++ t.flatMap (Piece.write { req with pageVarName := nameOf req })))), ?_, readString_plain _ hp _⟩
  rw [js_of, ht]
  simp only [List.flatMap_cons, Piece.write]
  rw [show bs "\t\tURN: \"domain/" = bs "\t\tURN: " ++ (ch '"' :: bs "domain/") by decide +kernel,
    show bs "\",\n" = ch '"' :: bs ",\n" by decide]
  simp only [List.append_assoc, List.cons_append]

example : Plain (bs "geniuses.group") ∧ Plain (bs "order-list") := by unfold Plain; decide +kernel
example : readString (bs "\"order\",") = some (bs "order") ∧ readString (bs "\"or\\der\",") = none := by decide +kernel

/-- **C269** violated for scopes with a quote: the template writes the scope as it is, so that the name of the page ends at the
quote and the rest of the scope is read as program text. -/
theorem C269_quote_violated (req : Request) (s t : Bytes) (hs : Plain s) (h : req.scopeName = s ++ ch '"' :: t) :
    ∃ a b, (makeNewPage req).2.js = a ++ (bs "\t\tName: " ++ b) ∧ readString b = some s ∧ s ≠ req.scopeName ∧
      ∃ c, b = ch '"' :: (s ++ ch '"' :: (t ++ c)) := by
  have two : ∀ x y z : Bytes, x <:+ y → x <:+ z ++ y := fun _ _ _ h => h.trans (List.suffix_append _ _)
  obtain ⟨a, b, hj⟩ := field_at req 8 _ _ (bs "\t\tName: \"") (bs "\t\tName: ") .scopeName req.scopeName rfl rfl rfl
    (by repeat (first | exact List.suffix_rfl | apply two)) (List.prefix_append _ _) (by decide +kernel) rfl
  refine ⟨a, _, hj, ?_, ?_, ch '"' :: b, ?_⟩
  · rw [h, List.append_assoc, List.cons_append]; exact readString_plain _ hs _
  · rw [h]; intro he
    have := congrArg List.length he
    simp at this
  · rw [h]; simp only [List.append_assoc, List.cons_append]

example := C269_quote_violated ⟨bs "a", bs "or" ++ ch '"' :: bs "der", []⟩ (bs "or") (bs "der") (by unfold Plain; decide +kernel) rfl

/-- **C148**: the request keeps its domain and scope and, once answered, holds the name of its page, so that answering it again
gives the same files. The page, style and texts are the same for every request. -/
theorem C148_request (req : Request) :
    let p := makeNewPage req
    p.1.domain = req.domain ∧ p.1.scopeName = req.scopeName ∧
      (req.pageVarName ≠ [] → p.1 = req) ∧
      makeNewPage p.1 = p ∧
      ∀ req', (makeNewPage req').2.html = p.2.html ∧ (makeNewPage req').2.css = p.2.css ∧ (makeNewPage req').2.json = p.2.json := by
  intro p
  have hrep : ∀ (q : Byte) (s : Bytes), replaceByte (titleFrom q s) (ch '-') (ch ' ') = [] → s = [] := by
    intro q s h
    cases s with
    | nil => rfl
    | cons b s => simp [titleFrom, replaceByte] at h
  refine ⟨?_, ?_, ?_, ?_, fun _ => ⟨rfl, rfl, rfl⟩⟩
  · simp only [p, makeNewPage]; split <;> rfl
  · simp only [p, makeNewPage]; split <;> rfl
  · intro h; simp only [p, makeNewPage, if_neg h]
  · simp only [p]
    unfold makeNewPage
    dsimp only
    by_cases h : req.pageVarName = []
    · rw [if_pos h]
      by_cases h2 : replaceByte (title req.scopeName) (ch '-') (ch ' ') = []
      · rw [if_pos h2]
      · rw [if_neg h2]
    · rw [if_neg h, if_neg h]

/-- **C269** violated for a request used again: the name stays when the scope is changed, so that two pages made with one request
are declared under one name. -/
theorem C269_reused_request_violated (req : Request) (scope : Bytes) (h0 : req.pageVarName = []) (hs : req.scopeName ≠ []) :
    let again := makeNewPage { (makeNewPage req).1 with scopeName := scope }
    again.1.pageVarName = (makeNewPage req).1.pageVarName ∧ again.1.scopeName = scope := by
  intro again
  have hne : replaceByte (title req.scopeName) (ch '-') (ch ' ') ≠ [] := by
    cases h : req.scopeName with
    | nil => exact absurd h hs
    | cons b t => simp [title, titleFrom, replaceByte]
  simp only [again, makeNewPage, if_pos h0]
  rw [if_neg hne]
  exact ⟨rfl, rfl⟩

example : ((makeNewPage { (makeNewPage ⟨bs "a", bs "order", []⟩).1 with scopeName := bs "cart" }).1).pageVarName = bs "Order" := by
  decide +kernel

/-! ### The splash screen -/

open Os File in
/-- **C148**: a file of the splash screen: it is found in its directory under its new name, not under its old one, holds the
given text, and every other name leads to what it did. -/
theorem C148_file (w : World) (i p : Nat) (n : FileNode) (pn : DirNode) (h : w.files[i]? = some n) (hp : n.parent = some p)
    (hd : w.dirs[p]? = some pn) (name data : Bytes) :
    ∃ w' pn', makeFile w (some i) name data = some w' ∧ w'.dirs[p]? = some pn' ∧ lookup pn'.files name = some i ∧
      (n.uri.name ≠ name → lookup pn'.files n.uri.name = none) ∧
      (∀ k, k ≠ name → k ≠ n.uri.name → lookup pn'.files k = lookup pn.files k) ∧
      writeTo w' (some i) = some data ∧
      (∃ n', w'.files[i]? = some n' ∧ n'.uri.name = name ∧ n'.parent = some p) ∧
      (∀ j, j ≠ i → w'.files[j]? = w.files[j]?) ∧ (∀ q, q ≠ p → w'.dirs[q]? = w.dirs[q]?) := by
  obtain ⟨w1, pn1, h1, h2, h3, h4, h5, h6, h7⟩ := C115_rename w i p n pn h hp hd name
  have hw1 : w1 = setFile (setFiles w p (mapSet (mapDelete pn.files n.uri.name) name (some i))) i
      { n with uri := n.uri.rename name } := by
    have : rename w (some i) name = some (setFile (setFiles w p (mapSet (mapDelete pn.files n.uri.name) name (some i))) i
      { n with uri := n.uri.rename name }) := by simp [rename, deref_some h, hp, hd]
    rw [this] at h1; exact (Option.some.inj h1).symm
  have hget : ∀ m : FileNode, (setFile w1 i m).files[i]? = some m := fun m => by rw [getElem?_setFile h6, if_pos rfl]
  refine ⟨setFile w1 i { n with uri := { n.uri with name := name, ext := extension name }, data := some data }, pn1, ?_, h2, h3, h4,
    h5, ?_, ⟨_, hget _, rfl, hp⟩, ?_, ?_⟩
  · rw [makeFile, h1, Option.bind_some]
    simp only [unmarshal, deref_some h6]
  · rw [writeTo, deref_some (hget _)]; rfl
  · intro j hj
    rw [getElem?_setFile h6, if_neg hj, hw1, getElem?_setFile (w := setFiles w p _) h, if_neg hj]; rfl
  · intro q hq
    rw [hw1]
    show ((setFiles w p _).dirs)[q]? = _
    simp only [setFiles, List.getElem?_modify]
    cases w.dirs[q]? with
    | none => simp
    | some d => simp [Ne.symm hq]

example := C148_file ⟨[⟨⟨[], [], []⟩, none, [], [(bs "d", some 0)]⟩], [⟨⟨[], bs "d", []⟩, some 0, [], [], none⟩], []⟩ 0 0 _ _ rfl rfl rfl
  (bs "a.css") (bs "x")

open Os in
/-- **C269** (partial: for three different files of one directory, of which the second and third do not already have a name of
an earlier one): the splash screen is its three texts under their names, and every other name leads to what it did.
Missing: files that have the name of another (refuted: `C269_splash_lost_violated`). -/
theorem C269_splash_partial (w : World) (i j k p : Nat) (ni nj nk : FileNode) (pn : DirNode) (hij : i ≠ j) (hik : i ≠ k) (hjk : j ≠ k)
    (hi : w.files[i]? = some ni) (hj : w.files[j]? = some nj) (hk : w.files[k]? = some nk) (pi : ni.parent = some p)
    (pj : nj.parent = some p) (pk : nk.parent = some p) (hd : w.dirs[p]? = some pn) (aj : nj.uri.name ≠ bs "splash.html")
    (ak : nk.uri.name ≠ bs "splash.html") (bk : nk.uri.name ≠ bs "splash.css") :
    ∃ w' pn', makeSplashFiles w (some i) (some j) (some k) = some w' ∧ w'.dirs[p]? = some pn' ∧
      lookup pn'.files (bs "splash.html") = some i ∧ writeTo w' (some i) = some splashHTML ∧
      lookup pn'.files (bs "splash.css") = some j ∧ writeTo w' (some j) = some splashCSS ∧
      lookup pn'.files (bs "splash.json") = some k ∧ writeTo w' (some k) = some splashJSON ∧
      (∀ m, m ∉ [bs "splash.html", bs "splash.css", bs "splash.json", ni.uri.name, nj.uri.name, nk.uri.name] →
        lookup pn'.files m = lookup pn.files m) ∧
      (∀ q, q ≠ p → w'.dirs[q]? = w.dirs[q]?) := by
  obtain ⟨w1, p1, a1, a2, a3, -, a5, a6, -, a8, a9⟩ := C148_file w i p ni pn hi pi hd (bs "splash.html") splashHTML
  obtain ⟨w2, p2, b1, b2, b3, -, b5, b6, -, b8, b9⟩ := C148_file w1 j p nj p1 ((a8 j (Ne.symm hij)).trans hj) pj a2
    (bs "splash.css") splashCSS
  obtain ⟨w3, p3, c1, c2, c3, -, c5, c6, -, c8, c9⟩ := C148_file w2 k p nk p2
    ((b8 k (Ne.symm hjk)).trans ((a8 k (Ne.symm hik)).trans hk)) pk b2 (bs "splash.json") splashJSON
  have wt : ∀ (u v : World) (x : Nat), v.files[x]? = u.files[x]? → writeTo v (some x) = writeTo u (some x) := by
    intro u v x h; simp only [writeTo, deref, h]
  refine ⟨w3, p3, ?_, c2, ?_, ?_, ?_, ?_, c3, c6, ?_, fun q hq => (c9 q hq).trans ((b9 q hq).trans (a9 q hq))⟩
  · simp only [makeSplashFiles, a1, b1, c1, Option.bind_some]
  · rw [c5 _ (by decide) (Ne.symm ak), b5 _ (by decide) (Ne.symm aj), a3]
  · rw [wt _ _ _ (c8 i hik), wt _ _ _ (b8 i hij), a6]
  · rw [c5 _ (by decide) (Ne.symm bk), b3]
  · rw [wt _ _ _ (c8 j hjk), b6]
  · intro m hm
    simp only [List.mem_cons, List.not_mem_nil, or_false, not_or] at hm
    obtain ⟨m1, m2, m3, m4, m5, m6⟩ := hm
    rw [c5 m m3 m6, b5 m m2 m5, a5 m m1 m4]

example := C269_splash_partial ⟨[⟨⟨[], [], []⟩, none, [], [(bs "a", some 0), (bs "b", some 1), (bs "c", some 2)]⟩],
  [⟨⟨[], bs "a", []⟩, some 0, [], [], none⟩, ⟨⟨[], bs "b", []⟩, some 0, [], [], none⟩, ⟨⟨[], bs "c", []⟩, some 0, [], [], none⟩], []⟩
  0 1 2 0 _ _ _ _ (by decide) (by decide) (by decide) rfl rfl rfl rfl rfl rfl rfl (by decide) (by decide) (by decide)

open Os in
/-- **C269** violated for a file that has the name of an earlier one: the style is a file that is already called `splash.html`;
making it renames it away, and with it the page just made is lost from the directory. -/
theorem C269_splash_lost_violated (w : World) (i j p : Nat) (ni nj : FileNode) (pn : DirNode) (hij : i ≠ j)
    (hi : w.files[i]? = some ni) (hj : w.files[j]? = some nj) (pi : ni.parent = some p) (pj : nj.parent = some p)
    (hd : w.dirs[p]? = some pn) (aj : nj.uri.name = bs "splash.html") :
    ∃ w1 w2 p2, makeFile w (some i) (bs "splash.html") splashHTML = some w1 ∧
      makeFile w1 (some j) (bs "splash.css") splashCSS = some w2 ∧ w2.dirs[p]? = some p2 ∧
      lookup p2.files (bs "splash.html") = none := by
  obtain ⟨w1, p1, a1, a2, -, -, -, -, -, a8, -⟩ := C148_file w i p ni pn hi pi hd (bs "splash.html") splashHTML
  obtain ⟨w2, p2, b1, b2, -, b4, -, -, -, -, -⟩ := C148_file w1 j p nj p1 ((a8 j (Ne.symm hij)).trans hj) pj a2
    (bs "splash.css") splashCSS
  refine ⟨w1, w2, p2, a1, b1, b2, ?_⟩
  rw [← aj]
  exact b4 (by rw [aj]; decide)

/-- Three new files in one directory. -/
def splashEx : Os.World :=
  let f (n : Bytes) : Os.FileNode := ⟨⟨bs "/", n, []⟩, some 0, [], [], none⟩
  ⟨[⟨⟨bs "/", [], []⟩, none, [], [(bs "a", some 0), (bs "b", some 1), (bs "c", some 2), (bs "d", some 3)]⟩],
    [f (bs "a"), f (bs "b"), f (bs "c"), f (bs "d")], []⟩

example : ((makeSplashFiles splashEx (some 0) (some 1) (some 2)).map fun (w : Os.World) =>
    w.dirs.map fun (d : Os.DirNode) => d.files) =
    some [[(bs "d", some 3), (bs "splash.html", some 0), (bs "splash.css", some 1), (bs "splash.json", some 2)]] := by
  decide +kernel

end Memar.Gui
