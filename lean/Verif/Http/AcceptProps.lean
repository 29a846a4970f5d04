import Verif.Http.Accept
import Verif.File.Props

/-! # C104: the Accept header is read as a list in order of preference -/

namespace Memar.Http
open Memar Memar.File

variable {Q : Type}

/-! ## Specification -/

/-- One element of an Accept header: the media type and, if present, its first parameter. -/
structure AcceptItem where
  media : Bytes
  param : Option (Bytes × Bytes)

/-- The text of an element: `media` or `media;name=value`. -/
def AcceptItem.text (i : AcceptItem) : Bytes :=
  match i.param with
  | none => i.media
  | some (name, v) => i.media ++ ch ';' :: (name ++ ch '=' :: v)

/-- No separator inside a field, no space at either end of the element. -/
def AcceptItem.Plain (i : AcceptItem) : Prop :=
  (∀ c ∈ i.text, c ≠ ch ',') ∧ (∀ c ∈ i.media, c ≠ ch ';') ∧
  i.text.head? ≠ some (ch ' ') ∧ i.text.getLast? ≠ some (ch ' ') ∧
  ∀ name v, i.param = some (name, v) → (∀ c ∈ name, c ≠ ch ';' ∧ c ≠ ch '=') ∧ ∀ c ∈ v, c ≠ ch ';' ∧ c ≠ ch '='

/-- The text of a header line with these elements. -/
def acceptText (items : List AcceptItem) : Bytes := List.intercalate [ch ','] (items.map AcceptItem.text)

/-- What an element asks for: quality one without a parameter, else the number of the parameter; an
element whose number is malformed asks for nothing. -/
def AcceptItem.wanted (one : Q) (parseFloat : Bytes → Option Q) (i : AcceptItem) : Option (Mime Q) :=
  match i.param with
  | none => some ⟨i.media, one⟩
  | some (_, v) => (parseFloat v).map fun f => ⟨i.media, f⟩

/-- `gt` is a strict order; some values (NaN) may be incomparable. -/
structure StrictOrder (gt : Q → Q → Bool) : Prop where
  irrefl : ∀ a, gt a a = false
  trans : ∀ a b c, gt a b = true → gt b c = true → gt a c = true

/-! ## Lemmas -/

theorem insertMime_perm (gt : Q → Q → Bool) (l : List (Mime Q)) (e : Mime Q) :
    (insertMime gt l e).Perm (e :: l) := by
  induction l with
  | nil => exact List.Perm.refl _
  | cons a r ih =>
    unfold insertMime
    split
    · exact List.Perm.refl _
    · exact (List.Perm.cons a ih).trans (List.Perm.swap _ _ _)

def Desc (gt : Q → Q → Bool) (l : List (Mime Q)) : Prop := l.Pairwise fun a b => gt b.quality a.quality = false

theorem insertMime_desc (gt : Q → Q → Bool) (ho : StrictOrder gt) (l : List (Mime Q)) (e : Mime Q)
    (h : Desc gt l) : Desc gt (insertMime gt l e) := by
  induction l with
  | nil => simp [insertMime, Desc]
  | cons a r ih =>
    have hr := (List.pairwise_cons.mp h)
    unfold insertMime
    by_cases hg : gt e.quality a.quality = true
    · rw [if_pos hg]
      refine List.pairwise_cons.mpr ⟨?_, h⟩
      intro b hb
      cases hbe : gt b.quality e.quality with
      | false => rfl
      | true =>
        have hba := ho.trans _ _ _ hbe hg
        rcases List.mem_cons.mp hb with rfl | hb
        · rw [ho.irrefl] at hba; cases hba
        · rw [hr.1 b hb] at hba; cases hba
    · rw [if_neg hg]
      refine List.pairwise_cons.mpr ⟨?_, ih hr.2⟩
      intro b hb
      rcases List.mem_cons.mp ((insertMime_perm gt r e).mem_iff.mp hb) with rfl | hb
      · simpa using hg
      · exact hr.1 b hb

theorem insertMime_filter (gt : Q → Q → Bool) (ho : StrictOrder gt) (p : Q → Bool)
    (hp : ∀ x y z, p x = true → p y = true → gt x z = gt y z) (l : List (Mime Q)) (e : Mime Q) (h : Desc gt l) :
    (insertMime gt l e).filter (fun m => p m.quality) = (l ++ [e]).filter fun m => p m.quality := by
  induction l with
  | nil => rfl
  | cons a r ih =>
    have hr := (List.pairwise_cons.mp h)
    unfold insertMime
    by_cases hg : gt e.quality a.quality = true
    · rw [if_pos hg]
      by_cases hpe : p e.quality = true
      · have hno : (a :: r).filter (fun m => p m.quality) = [] := by
          rw [List.filter_eq_nil_iff]
          intro m hm hpm
          have : gt m.quality a.quality = true := by rw [hp _ _ _ hpm hpe]; exact hg
          rcases List.mem_cons.mp hm with rfl | hm
          · rw [ho.irrefl] at this; cases this
          · rw [hr.1 m hm] at this; cases this
        rw [List.filter_append, hno, List.filter_cons, if_pos hpe, hno]
        simp [hpe]
      · rw [List.filter_append]
        simp [List.filter_cons, hpe]
    · rw [if_neg hg, List.filter_cons, ih hr.2, List.cons_append, List.filter_cons]

theorem sortLoop_spec (gt : Q → Q → Bool) (one : Q) (pf : Bytes → Option Q) (parts : List Bytes)
    (sorted : List (Mime Q)) :
    (sortLoop gt one pf sorted parts).Perm (sorted ++ parts.filterMap (mimeOf one pf)) ∧
    (StrictOrder gt → Desc gt sorted → Desc gt (sortLoop gt one pf sorted parts) ∧
      ∀ p : Q → Bool, (∀ x y z, p x = true → p y = true → gt x z = gt y z) →
        (sortLoop gt one pf sorted parts).filter (fun m => p m.quality) =
          (sorted ++ parts.filterMap (mimeOf one pf)).filter fun m => p m.quality) := by
  induction parts generalizing sorted with
  | nil => simp [sortLoop]
  | cons x xs ih =>
    unfold sortLoop
    cases hx : mimeOf one pf x with
    | none =>
      simp only [List.filterMap_cons, hx]; exact ih sorted
    | some m =>
      simp only [List.filterMap_cons, hx]
      obtain ⟨i1, i2⟩ := ih (insertMime gt sorted m)
      refine ⟨i1.trans ?_, ?_⟩
      · exact ((insertMime_perm gt sorted m).append_right _).trans (List.perm_middle).symm
      · intro ho hd
        obtain ⟨j1, j2⟩ := i2 ho (insertMime_desc gt ho sorted m hd)
        refine ⟨j1, fun p hp => ?_⟩
        rw [j2 p hp, List.filter_append, insertMime_filter gt ho p hp sorted m hd, ← List.filter_append]
        simp

theorem dropWhile_head (s : Bytes) (h : s.head? ≠ some (ch ' ')) : s.dropWhile (· = ch ' ') = s := by
  cases s with
  | nil => rfl
  | cons a r => rw [List.dropWhile_cons, if_neg]; simpa using h

theorem trimSpaces_id (s : Bytes) (h1 : s.head? ≠ some (ch ' ')) (h2 : s.getLast? ≠ some (ch ' ')) :
    trimSpaces s = s := by
  unfold trimSpaces
  rw [dropWhile_head s h1, dropWhile_head s.reverse (by rw [List.head?_reverse]; exact h2), List.reverse_reverse]

theorem split_single (c : Byte) (s : Bytes) (h : c ∉ s) : split s c = [s] := by
  have := split_join c [s] (by simp) (by simpa using h)
  simpa [List.intercalate] using this

theorem split_two (c : Byte) (a b : Bytes) (ha : c ∉ a) : split (a ++ c :: b) c = a :: split b c := by
  rw [split, splitLoop_append c [] a ha, splitLoop, if_pos rfl]; simp [split]

theorem mimeOf_text (one : Q) (pf : Bytes → Option Q) (i : AcceptItem) (h : i.Plain) :
    mimeOf one pf i.text = i.wanted one pf := by
  obtain ⟨h1, h2, h3, h4, h5⟩ := h
  have hm : ch ';' ∉ i.media := fun hc => h2 _ hc rfl
  unfold mimeOf
  rw [trimSpaces_id _ h3 h4]
  unfold AcceptItem.text AcceptItem.wanted
  cases hp : i.param with
  | none => simp only; rw [split_single _ _ hm]
  | some nv =>
    obtain ⟨name, v⟩ := nv
    obtain ⟨hn, hv⟩ := h5 name v hp
    simp only
    have hps : ch ';' ∉ name ++ ch '=' :: v := by
      intro hc
      rcases List.mem_append.mp hc with hc | hc
      · exact (hn _ hc).1 rfl
      · rcases List.mem_cons.mp hc with hc | hc
        · exact absurd hc (by decide)
        · exact (hv _ hc).1 rfl
    rw [split_two _ _ _ hm, split_single _ _ hps]
    simp only
    rw [split_two _ _ _ (fun hc => (hn _ hc).2 rfl), split_single _ _ (fun hc => (hv _ hc).2 rfl)]

theorem entries_text (one : Q) (pf : Bytes → Option Q) (items : List AcceptItem) (hne : items ≠ [])
    (h : ∀ i ∈ items, i.Plain) :
    (split (acceptText items) (ch ',')).filterMap (mimeOf one pf) =
      items.filterMap fun i => i.wanted one pf := by
  unfold acceptText
  rw [split_join _ _ (by simpa using hne)]
  · rw [List.filterMap_map]
    clear hne
    induction items with
    | nil => rfl
    | cons i r ih =>
      simp only [List.filterMap_cons, Function.comp_apply]
      rw [mimeOf_text one pf i (h i (by simp)), ih fun j hj => h j (List.mem_cons_of_mem _ hj)]
  · intro x hx hc
    obtain ⟨i, hi, rfl⟩ := List.mem_map.mp hx
    exact (h i hi).1 _ hc rfl

theorem mimeOf_padded (one : Q) (parseFloat : Bytes → Option Q) (s : Bytes) (j k : Nat)
    (h1 : s.head? ≠ some (ch ' ')) (h2 : s.getLast? ≠ some (ch ' ')) :
    mimeOf one parseFloat (List.replicate j (ch ' ') ++ s ++ List.replicate k (ch ' ')) = mimeOf one parseFloat s := by
  have hd : ∀ (n : Nat) (t : Bytes), (List.replicate n (ch ' ') ++ t).dropWhile (· = ch ' ') = t.dropWhile (· = ch ' ') := by
    intro n t
    induction n with
    | zero => rfl
    | succ n ih => rw [List.replicate_succ, List.cons_append, List.dropWhile_cons, if_pos (by simp), ih]
  have : trimSpaces (List.replicate j (ch ' ') ++ s ++ List.replicate k (ch ' ')) = trimSpaces s := by
    unfold trimSpaces
    rw [List.append_assoc, hd]
    cases s with
    | nil =>
      have := hd k []
      simp only [List.append_nil] at this
      simp [this]
    | cons a r =>
      have e1 : ((a :: r) ++ List.replicate k (ch ' ')).dropWhile (· = ch ' ') = (a :: r) ++ List.replicate k (ch ' ') := by
        apply dropWhile_head; simpa using h1
      rw [e1, dropWhile_head _ h1, List.reverse_append, List.reverse_replicate, hd]
  unfold mimeOf
  rw [this]

/-! ## Properties -/

/-- C259, what holds: for every header made of plain elements the result lists exactly what the elements ask
for, nothing twice and nothing missing, no entry stands before one of a higher quality, and
entries the order cannot tell apart stay in the order of the header.
Missing: elements with parameters other than one number, and a header that is absent (refuted: `C259_any_parameter_is_quality_violated`, `C259_non_numeric_parameter_drops_media_violated`, `C259_absent_header_violated`). -/
theorem C259_sorted_by_quality_partial (gt : Q → Q → Bool) (ho : StrictOrder gt) (one : Q)
    (parseFloat : Bytes → Option Q) (items : List AcceptItem) (hne : items ≠ []) (h : ∀ i ∈ items, i.Plain) :
    let r := sortMimes gt one parseFloat (acceptText items)
    r.Perm (items.filterMap fun i => i.wanted one parseFloat) ∧
    (r.Pairwise fun a b => gt b.quality a.quality = false) ∧
    ∀ p : Q → Bool, (∀ x y z, p x = true → p y = true → gt x z = gt y z) →
      r.filter (fun m => p m.quality) =
        (items.filterMap fun i => i.wanted one parseFloat).filter fun m => p m.quality := by
  have hs := sortLoop_spec gt one parseFloat (split (acceptText items) (ch ',')) []
  rw [entries_text one parseFloat items hne h] at hs
  obtain ⟨h1, h2⟩ := hs
  obtain ⟨h3, h4⟩ := h2 ho List.Pairwise.nil
  exact ⟨by simpa [sortMimes] using h1, h3, by simpa [sortMimes] using h4⟩

/-- C104: the first entry is beaten by no other entry, for every header text whatever. -/
theorem C104_first_is_best (gt : Q → Q → Bool) (ho : StrictOrder gt) (one : Q) (parseFloat : Bytes → Option Q)
    (accept : Bytes) (m : Mime Q) (rest : List (Mime Q))
    (h : sortMimes gt one parseFloat accept = m :: rest) :
    ∀ x ∈ rest, gt x.quality m.quality = false := by
  have hs := (sortLoop_spec gt one parseFloat (split accept (ch ',')) []).2 ho List.Pairwise.nil
  have := hs.1
  rw [show sortLoop gt one parseFloat [] (split accept (ch ',')) = m :: rest from h] at this
  exact (List.pairwise_cons.mp this).1

/-- C104: spaces around an element do not matter. -/
theorem C104_spaces_ignored (gt : Q → Q → Bool) (one : Q) (parseFloat : Bytes → Option Q)
    (items : List (Nat × AcceptItem × Nat)) (h : ∀ x ∈ items, x.2.1.Plain) :
    sortMimes gt one parseFloat (List.intercalate [ch ','] (items.map fun x =>
        List.replicate x.1 (ch ' ') ++ x.2.1.text ++ List.replicate x.2.2 (ch ' '))) =
      sortMimes gt one parseFloat (acceptText (items.map fun x => x.2.1)) := by
  cases items with
  | nil => rfl
  | cons x0 xs =>
    unfold sortMimes acceptText
    rw [split_join _ _ (by simp), split_join _ _ (by simp)]
    · generalize ([] : List (Mime Q)) = acc
      generalize x0 :: xs = l at h
      induction l generalizing acc with
      | nil => rfl
      | cons x r ih =>
        simp only [List.map_cons, sortLoop]
        obtain ⟨_, _, h3, h4, _⟩ := h x (by simp)
        rw [mimeOf_padded one parseFloat _ _ _ h3 h4]
        cases mimeOf one parseFloat x.2.1.text with
        | none => exact ih acc fun y hy => h y (List.mem_cons_of_mem _ hy)
        | some m => exact ih _ fun y hy => h y (List.mem_cons_of_mem _ hy)
    · intro y hy hc
      rw [List.map_map] at hy
      obtain ⟨x, hx, rfl⟩ := List.mem_map.mp hy
      exact (h x hx).1 _ hc rfl
    · intro y hy hc
      obtain ⟨x, hx, rfl⟩ := List.mem_map.mp hy
      simp only [List.mem_append, List.mem_replicate] at hc
      rcases hc with (hc | hc) | hc
      · exact absurd hc.2 (by decide)
      · exact (h x hx).1 _ hc rfl
      · exact absurd hc.2 (by decide)

/-- C259 violated: the quality is read from the first parameter whatever its name, so a media type with a
parameter of its own is ranked by that parameter and its `q` is ignored. -/
theorem C259_any_parameter_is_quality_violated (gt : Q → Q → Bool) (one : Q) (parseFloat : Bytes → Option Q)
    (media name v : Bytes) (f : Q) (hp : parseFloat v = some f)
    (h : AcceptItem.Plain ⟨media, some (name, v)⟩) :
    sortMimes gt one parseFloat (acceptText [⟨media, some (name, v)⟩]) = [⟨media, f⟩] := by
  have hs := (sortLoop_spec gt one parseFloat (split (acceptText [⟨media, some (name, v)⟩]) (ch ',')) []).1
  rw [entries_text one parseFloat _ (by simp) (by simpa using h)] at hs
  have e : [⟨media, some (name, v)⟩].filterMap (fun i => AcceptItem.wanted one parseFloat i) = [⟨media, f⟩] := by
    simp [AcceptItem.wanted, hp]
  rw [e] at hs
  simpa [sortMimes] using hs

/-- C259 violated: an element with a parameter that is no number, like a character set, is dropped: the
media type is not in the list at all, though the header asks for it. -/
theorem C259_non_numeric_parameter_drops_media_violated (gt : Q → Q → Bool) (one : Q) (parseFloat : Bytes → Option Q)
    (media name v : Bytes) (hp : parseFloat v = none) (h : AcceptItem.Plain ⟨media, some (name, v)⟩) :
    sortMimes gt one parseFloat (acceptText [⟨media, some (name, v)⟩]) = [] := by
  have hs := (sortLoop_spec gt one parseFloat (split (acceptText [⟨media, some (name, v)⟩]) (ch ',')) []).1
  rw [entries_text one parseFloat _ (by simp) (by simpa using h)] at hs
  have e : [⟨media, some (name, v)⟩].filterMap (fun i => AcceptItem.wanted one parseFloat i) = [] := by
    simp [AcceptItem.wanted, hp]
  rw [e] at hs
  simpa [sortMimes] using hs

/-- C259 violated: an absent header (empty text) gives a list of one entry whose media type is empty. -/
theorem C259_absent_header_violated (gt : Q → Q → Bool) (one : Q) (parseFloat : Bytes → Option Q) :
    sortMimes gt one parseFloat [] = [⟨[], one⟩] := rfl

/-! ### Non-vacuity: qualities as naturals (tenths) -/

def tenths (s : Bytes) : Option Nat :=
  if s = bs "0.5" then some 5 else if s = bs "0.9" then some 9 else if s = bs "1" then some 10 else none

example : StrictOrder (Q := Nat) (fun a b => decide (a > b)) :=
  ⟨by simp, by intro a b c; simp only [decide_eq_true_eq]; omega⟩

example : ∀ i ∈ [(⟨bs "text/html", none⟩ : AcceptItem), ⟨bs "a/b", some (bs "q", bs "0.5")⟩,
    ⟨bs "c/d", some (bs "q", bs "0.9")⟩, ⟨bs "e/f", none⟩], i.Plain := by
  intro i hi
  simp only [List.mem_cons, List.not_mem_nil, or_false] at hi
  rcases hi with rfl | rfl | rfl | rfl <;>
    refine ⟨by decide +kernel, by decide +kernel, by decide +kernel, by decide +kernel, ?_⟩ <;>
    (intro name v h; first | (cases h; done) | (cases h; decide +kernel))

example : sortMimes (Q := Nat) (fun a b => decide (a > b)) 10 tenths
    (bs "a/b;q=0.5, text/html, c/d;q=0.9, e/f, g/h;level=1;q=0.5, i/j;charset=utf-8") =
    [⟨bs "text/html", 10⟩, ⟨bs "e/f", 10⟩, ⟨bs "g/h", 10⟩, ⟨bs "c/d", 9⟩, ⟨bs "a/b", 5⟩] := by decide +kernel

theorem exItems_plain : ∀ i ∈ [(⟨bs "text/html", none⟩ : AcceptItem), ⟨bs "a/b", some (bs "q", bs "0.5")⟩,
    ⟨bs "c/d", some (bs "q", bs "0.9")⟩, ⟨bs "e/f", none⟩], i.Plain := by
  intro i hi
  simp only [List.mem_cons, List.not_mem_nil, or_false] at hi
  rcases hi with rfl | rfl | rfl | rfl <;>
    refine ⟨by decide +kernel, by decide +kernel, by decide +kernel, by decide +kernel, ?_⟩ <;>
    (intro name v h; first | (cases h; done) | (cases h; decide +kernel))

theorem exOrder : StrictOrder (Q := Nat) (fun a b => decide (a > b)) :=
  ⟨by simp, by intro a b c; simp only [decide_eq_true_eq]; omega⟩

example := C259_sorted_by_quality_partial _ exOrder 10 tenths _ (by simp) exItems_plain
example := C104_first_is_best _ exOrder 10 tenths (bs "a/b;q=0.5,c/d;q=0.9") ⟨bs "c/d", 9⟩ [⟨bs "a/b", 5⟩] (by decide +kernel)
example := C104_spaces_ignored (Q := Nat) (fun a b => decide (a > b)) 10 tenths
  [(1, ⟨bs "text/html", none⟩, 0), (0, ⟨bs "c/d", some (bs "q", bs "0.9")⟩, 2)]
  (fun x hx => by
    simp only [List.mem_cons, List.not_mem_nil, or_false] at hx
    rcases hx with rfl | rfl <;> exact exItems_plain _ (by simp))
example := C259_any_parameter_is_quality_violated (Q := Nat) (fun a b => decide (a > b)) 10 (fun _ => some 1) (bs "g/h") (bs "level") (bs "1") 1
  rfl ⟨by decide +kernel, by decide +kernel, by decide +kernel, by decide +kernel, fun _ _ h => by cases h; decide +kernel⟩
example := C259_non_numeric_parameter_drops_media_violated (Q := Nat) (fun a b => decide (a > b)) 10 tenths (bs "i/j") (bs "charset")
  (bs "utf-8") (by decide +kernel)
  ⟨by decide +kernel, by decide +kernel, by decide +kernel, by decide +kernel, fun _ _ h => by cases h; decide +kernel⟩

end Memar.Http
