import Verif.Minify.Model
import Verif.Www.Lemmas
import Verif.Www.AssetsLemmas

namespace Memar.Minify
open Memar

/-! ## Specification -/

/-- `<!--` -/
def commentStart : Bytes := bs "<!--"

/-- A text and what is left of it when the line ends (`\n`, `\r\n`) and the comments that end are taken out, read
from the left. -/
inductive Stripped : Bytes → Bytes → Prop where
  | nil : Stripped [] []
  | newline (r o : Bytes) : Stripped r o → Stripped (ch '\n' :: r) o
  | crlf (r o : Bytes) : Stripped r o → Stripped (ch '\r' :: ch '\n' :: r) o
  | comment (body r o : Bytes) : ¬ bs "-->" <:+: body → Stripped r o →
      Stripped (commentStart ++ body ++ bs "-->" ++ r) o
  | keep (c : Byte) (r o : Bytes) : c ≠ ch '\n' → (c = ch '\r' → ∀ r', r ≠ ch '\n' :: r') →
      (∀ body r', c :: r ≠ commentStart ++ body ++ bs "-->" ++ r') → Stripped r o → Stripped (c :: r) (c :: o)

/-! ## Lemmas -/

theorem end_unique : Www.EndsUniquely commentEnd := ⟨bs "--", ch '>', by decide, by decide⟩

theorem indexOf_not_before (s m : Bytes) (i : Nat) (h : indexOf s m = some i) : ∀ j, j < i → ¬ m <+: s.drop j := by
  induction s generalizing i with
  | nil =>
    unfold indexOf at h
    split at h
    · cases h; intro j hj; omega
    · simp at h
  | cons x s ih =>
    unfold indexOf at h
    split at h
    · cases h; intro j hj; omega
    · next hp =>
      obtain ⟨k, hk, rfl⟩ := Option.map_eq_some_iff.mp h
      intro j hj
      cases j with
      | zero => intro hh; exact hp (List.isPrefixOf_iff_prefix.mpr hh)
      | succ j => rw [List.drop_succ_cons]; exact ih k hk j (by omega)

theorem indexOf_clear (s m : Bytes) (hm : m ≠ []) (i : Nat) (h : indexOf s m = some i) : ¬ m <:+: s.take i := by
  rintro ⟨a, b, hab⟩
  have hl : a.length + m.length + b.length ≤ i := by
    have := congrArg List.length hab
    simp only [List.length_append, List.length_take] at this; omega
  have hmp := List.length_pos_iff.mpr hm
  refine indexOf_not_before s m i h a.length (by omega) ⟨b ++ s.drop i, ?_⟩
  have hs : s = a ++ (m ++ (b ++ s.drop i)) := by
    have : s = s.take i ++ s.drop i := (List.take_append_drop i s).symm
    conv => lhs; rw [this, ← hab]
    simp
  conv => rhs; rw [hs]
  rw [List.drop_left' rfl]

theorem indexOf_first_iff (r : Bytes) (i : Nat) :
    indexOf r commentEnd = some i ↔ ∃ body rest, r = body ++ commentEnd ++ rest ∧ body.length = i ∧ ¬ commentEnd <:+: body := by
  constructor
  · intro h
    have hs := Www.Assets.indexOf_split r commentEnd i h
    refine ⟨r.take i, r.drop (i + commentEnd.length), hs, ?_, indexOf_clear r _ (by decide) i h⟩
    have := congrArg List.length hs
    have h3 : commentEnd.length = 3 := by decide
    simp only [List.length_append, List.length_take, List.length_drop, h3] at this ⊢
    omega
  · rintro ⟨body, rest, rfl, rfl, hn⟩
    rw [List.append_assoc]
    exact Www.indexOf_first _ end_unique _ _ hn

theorem mem_takeWhile_split (r : Bytes) : ∃ z, r = r.takeWhile (· ≠ ch '\n') ++ z ∧ (z = [] ∨ ∃ z', z = ch '\n' :: z') := by
  induction r with
  | nil => exact ⟨[], rfl, Or.inl rfl⟩
  | cons c r ih =>
    by_cases hc : c = ch '\n'
    · exact ⟨c :: r, by simp [hc], Or.inr ⟨r, by rw [hc]⟩⟩
    · obtain ⟨z, h1, h2⟩ := ih
      refine ⟨z, ?_, h2⟩
      rw [List.takeWhile_cons_of_pos (by simpa using hc), List.cons_append, ← h1]

theorem prefix_in_line (r : Bytes) (h : commentEnd <+: r) : commentEnd <+: r.takeWhile (· ≠ ch '\n') := by
  obtain ⟨z, rfl⟩ := h
  rw [List.takeWhile_append_of_pos (by decide)]
  exact List.prefix_append _ _

theorem commentLen_eq (r : Bytes) : commentLen r = (indexOf r commentEnd).map (· + 3) := by
  unfold commentLen
  cases h : indexOf (r.takeWhile (· ≠ ch '\n')) commentEnd with
  | some i =>
    obtain ⟨body, rest, h1, h2, h3⟩ := (indexOf_first_iff _ _).mp h
    obtain ⟨z, hz, -⟩ := mem_takeWhile_split r
    have : indexOf r commentEnd = some i :=
      (indexOf_first_iff _ _).mpr ⟨body, rest ++ z, by rw [hz, h1]; simp, h2, h3⟩
    simp [this]
  | none =>
    simp only
    have hnp : ¬ commentEnd <+: r := by
      intro hp
      exact (Www.indexOf_nil_iff _ _).mp h (prefix_in_line r hp).isInfix
    cases r with
    | nil => decide
    | cons c r =>
      rw [List.drop_one, List.tail_cons]
      conv => rhs; unfold indexOf
      rw [if_neg (fun hh => hnp (List.isPrefixOf_iff_prefix.mp hh))]
      simp only [Option.map_map]
      congr 1

theorem html_newline (r : Bytes) : html (ch '\n' :: r) = html r := by rw [html, if_pos rfl]

theorem html_crlf (r : Bytes) : html (ch '\r' :: ch '\n' :: r) = html r := by
  rw [html, if_neg (by decide), if_pos ⟨rfl, rfl⟩]; rfl

theorem html_comment (body r : Bytes) (h : ¬ commentEnd <:+: body) :
    html (commentStart ++ body ++ commentEnd ++ r) = html r := by
  have hs : commentStart ++ body ++ commentEnd ++ r = ch '<' :: (bs "!--" ++ (body ++ commentEnd ++ r)) := by
    rw [show commentStart = ch '<' :: bs "!--" by decide]; simp
  rw [hs, html, if_neg (by decide), if_neg (by intro hh; exact absurd hh.1 (by decide)),
    if_pos ⟨rfl, List.take_left' rfl⟩,
    show (bs "!--" ++ (body ++ commentEnd ++ r)).drop 3 = body ++ commentEnd ++ r from List.drop_left' rfl, commentLen_eq,
    (indexOf_first_iff _ body.length).mpr ⟨body, r, rfl, rfl, h⟩]
  simp only [Option.map_some]
  congr 1
  rw [← List.drop_drop,
    show (bs "!--" ++ (body ++ commentEnd ++ r)).drop 3 = body ++ commentEnd ++ r from List.drop_left' rfl]
  exact List.drop_left' (by simp [show commentEnd.length = 3 by decide])

theorem html_keep (c : Byte) (r : Bytes) (h1 : c ≠ ch '\n') (h2 : c = ch '\r' → ∀ r', r ≠ ch '\n' :: r')
    (h3 : ∀ body r', c :: r ≠ commentStart ++ body ++ commentEnd ++ r') : html (c :: r) = c :: html r := by
  rw [html, if_neg h1, if_neg ?_]
  · split
    · next hc =>
      rw [commentLen_eq]
      cases hi : indexOf (r.drop 3) commentEnd with
      | none => rfl
      | some i =>
        obtain ⟨body, rest, e, -, -⟩ := (indexOf_first_iff _ _).mp hi
        refine absurd ?_ (h3 body rest)
        rw [show commentStart = ch '<' :: bs "!--" by decide, hc.1, List.append_assoc, List.append_assoc,
          List.cons_append, ← hc.2, ← List.append_assoc body, ← e, List.take_append_drop]
    · rfl
  · rintro ⟨hc, hr⟩
    cases r with
    | nil => simp at hr
    | cons d r =>
      simp only [List.head?_cons, Option.some.injEq] at hr
      exact h2 hc r (by rw [hr])

theorem stripped_html (s : Bytes) : Stripped s (html s) := by
  suffices H : ∀ n (s : Bytes), s.length ≤ n → Stripped s (html s) from H _ s (Nat.le_refl _)
  intro n
  induction n with
  | zero =>
    intro s hs
    have : s = [] := List.length_eq_zero_iff.mp (by omega)
    subst this; rw [html]; exact .nil
  | succ n ih =>
    intro s hs
    cases s with
    | nil => rw [html]; exact .nil
    | cons c r =>
      simp only [List.length_cons] at hs
      by_cases h1 : c = ch '\n'
      · rw [h1, html_newline]; exact .newline _ _ (ih _ (by omega))
      · by_cases h2 : c = ch '\r' ∧ ∃ r', r = ch '\n' :: r'
        · obtain ⟨rfl, r', rfl⟩ := h2
          rw [html_crlf]
          simp only [List.length_cons] at hs
          exact .crlf _ _ (ih _ (by omega))
        · by_cases h3 : ∃ body r', c :: r = commentStart ++ body ++ commentEnd ++ r'
          · obtain ⟨body, r', e⟩ := h3
            -- the first end of the comment
            have hin : commentEnd <:+: body ++ commentEnd ++ r' := ⟨body, r', rfl⟩
            cases hi : indexOf (body ++ commentEnd ++ r') commentEnd with
            | none => exact absurd hin ((Www.indexOf_nil_iff _ _).mp hi)
            | some i =>
              obtain ⟨b2, r2, e2, -, hb⟩ := (indexOf_first_iff _ _).mp hi
              have e3 : c :: r = commentStart ++ b2 ++ commentEnd ++ r2 := by
                rw [e, List.append_assoc, List.append_assoc, ← List.append_assoc body, e2]; simp
              rw [e3, html_comment b2 r2 hb]
              refine .comment _ _ _ hb (ih _ ?_)
              have := congrArg List.length e3
              simp only [List.length_cons, List.length_append] at this
              have h4 : commentStart.length = 4 := by decide
              omega
          · have h2' : c = ch '\r' → ∀ r', r ≠ ch '\n' :: r' := fun hc r' hr => h2 ⟨hc, r', hr⟩
            have h3' : ∀ body r', c :: r ≠ commentStart ++ body ++ commentEnd ++ r' := fun b r' e => h3 ⟨b, r', e⟩
            rw [html_keep c r h1 h2' h3']
            exact .keep c r _ h1 h2' h3' (ih _ (by omega))

/-! ## C145 -/

/-- C145: minifying HTML takes out exactly the line ends and the comments that end; everything else stays, in
order. -/
theorem C145_html (s o : Bytes) : html s = o ↔ Stripped s o := by
  constructor
  · rintro rfl; exact stripped_html s
  · intro h
    induction h with
    | nil => rw [html]
    | newline r o _ ih => rw [html_newline, ih]
    | crlf r o _ ih => rw [html_crlf, ih]
    | comment body r o hb _ ih => rw [show bs "-->" = commentEnd from rfl, html_comment body r hb, ih]
    | keep c r o h1 h2 h3 _ ih => rw [html_keep c r h1 h2 h3, ih]

example : html (bs "<p>a</p>\r\n<!-- x\ny -->\n<b>") = bs "<p>a</p><b>" := by
  rw [C145_html]
  have hb : ¬ bs "-->" <:+: bs " x\ny " := by decide
  have hk : ∀ (c : Byte) (r o : Bytes), c ≠ ch '\n' → c ≠ ch '\r' → r.take 3 ≠ bs "!--" → Stripped r o →
      Stripped (c :: r) (c :: o) := by
    intro c r o h1 h2 h3 h
    refine .keep c r o h1 (fun hc => absurd hc h2) ?_ h
    intro body r' e
    rw [show commentStart = ch '<' :: bs "!--" by decide] at e
    simp only [List.cons_append, List.cons.injEq] at e
    apply h3
    rw [e.2, List.append_assoc, List.append_assoc]; exact List.take_left' rfl
  have e : bs "<p>a</p>\r\n<!-- x\ny -->\n<b>" = bs "<p>a</p>" ++ (ch '\r' :: ch '\n' ::
      (commentStart ++ bs " x\ny " ++ bs "-->" ++ (ch '\n' :: bs "<b>"))) := by decide
  rw [e]
  refine hk _ _ _ (by decide) (by decide) (by decide) ?_
  refine hk _ _ _ (by decide) (by decide) (by decide) ?_
  refine hk _ _ _ (by decide) (by decide) (by decide) ?_
  refine hk _ _ _ (by decide) (by decide) (by decide) ?_
  refine hk _ _ _ (by decide) (by decide) (by decide) ?_
  refine hk _ _ _ (by decide) (by decide) (by decide) ?_
  refine hk _ _ _ (by decide) (by decide) (by decide) ?_
  refine hk _ _ _ (by decide) (by decide) (by decide) ?_
  refine .crlf _ _ (.comment _ _ _ hb (.newline _ _ ?_))
  refine hk _ _ _ (by decide) (by decide) (by decide) ?_
  refine hk _ _ _ (by decide) (by decide) (by decide) ?_
  exact hk _ _ _ (by decide) (by decide) (by decide) .nil

/-- C145: minified HTML is a part of the text, in the order of the text, has no line end, and is the text itself
exactly when the text has neither a line end nor a comment that ends. -/
theorem C145_html_text (s : Bytes) :
    (html s).Sublist s ∧ ch '\n' ∉ html s ∧
    (html s = s ↔ ch '\n' ∉ s ∧ ∀ a body b, s ≠ a ++ commentStart ++ body ++ bs "-->" ++ b) := by
  have h := stripped_html s
  have hsub : ∀ s o, Stripped s o → o.Sublist s := by
    intro s o h
    induction h with
    | nil => exact .slnil
    | newline r o _ ih => exact ih.cons _
    | crlf r o _ ih => exact (ih.cons _).cons _
    | comment body r o _ _ ih => exact ih.trans (List.sublist_append_right _ _)
    | keep c r o _ _ _ _ ih => exact ih.cons_cons _
  have hnl : ∀ s o, Stripped s o → ch '\n' ∉ o := by
    intro s o h
    induction h with
    | nil => simp
    | newline r o _ ih => exact ih
    | crlf r o _ ih => exact ih
    | comment body r o _ _ ih => exact ih
    | keep c r o h1 _ _ _ ih => simp only [List.mem_cons, not_or]; exact ⟨Ne.symm h1, ih⟩
  refine ⟨hsub _ _ h, hnl _ _ h, ?_, ?_⟩
  · intro e
    refine ⟨by rw [← e]; exact hnl _ _ h, ?_⟩
    have key : ∀ s o, Stripped s o → o = s → ∀ a body b, s ≠ a ++ commentStart ++ body ++ bs "-->" ++ b := by
      intro s o h
      induction h with
      | nil =>
        intro _ a body b e
        have := congrArg List.length e
        simp only [List.length_append, List.length_nil, show commentStart.length = 4 by decide] at this
        omega
      | newline r o ho ih =>
        intro e; have := (hsub _ _ ho).length_le; rw [e] at this; simp at this; omega
      | crlf r o ho ih =>
        intro e; have := (hsub _ _ ho).length_le; rw [e] at this; simp at this; omega
      | comment body r o _ ho ih =>
        intro e; have := (hsub _ _ ho).length_le; rw [e] at this
        simp only [List.length_append, show commentStart.length = 4 by decide] at this; omega
      | keep c r o h1 h2 h3 ho ih =>
        intro e a body b hh
        cases a with
        | nil => exact h3 body b (by simpa using hh)
        | cons x a =>
          simp only [List.cons_append, List.cons.injEq] at hh e
          exact ih e.2 a body b (by simpa using hh.2)
    exact key _ _ h e
  · rintro ⟨h1, h2⟩
    rw [C145_html]
    clear h
    induction s with
    | nil => exact .nil
    | cons c r ih =>
      simp only [List.mem_cons, not_or] at h1
      refine .keep c r r (Ne.symm h1.1) ?_ (fun body r' e => h2 [] body r' (by simpa using e)) (ih h1.2 ?_)
      · intro _ r' e; apply h1.2; rw [e]; exact List.mem_cons_self
      · intro a body b e; exact h2 (c :: a) body b (by rw [e]; simp)

example : html (bs "a <!-- b") = bs "a <!-- b" := by
  refine ((C145_html_text _).2.2).mpr ⟨by decide, ?_⟩
  intro a body b e
  have h : bs "-->" <:+: bs "a <!-- b" := ⟨a ++ commentStart ++ body, b, e.symm⟩
  exact (Www.indexOf_nil_iff _ _).mp (by decide +kernel) h

/-- C234 violated: minifying HTML must not change what the page says. A line end is taken out without a blank in its
place, so the words at the end and the start of two lines become one word. -/
theorem C234_words_joined_violated (a b : Bytes) (ha : ch '\n' ∉ a) (hb : ch '\n' ∉ b)
    (hac : ¬ commentStart <:+: a ++ b) (hcr : a.getLast? ≠ some (ch '\r')) : html (a ++ ch '\n' :: b) = a ++ b := by
  rw [C145_html]
  have hb' : ¬ commentStart <:+: b := fun h => hac (h.trans (List.suffix_append a b).isInfix)
  have hB : Stripped b b := (C145_html b b).mp (((C145_html_text b).2.2).mpr ⟨hb, fun x body y e =>
    hb' ⟨x, body ++ bs "-->" ++ y, by rw [e]; simp⟩⟩)
  have hac2 : ¬ commentStart <:+: a := fun h => hac (h.trans (List.prefix_append a b).isInfix)
  clear hac
  induction a with
  | nil => exact .newline _ _ hB
  | cons c a ih =>
    simp only [List.mem_cons, not_or] at ha
    rw [List.cons_append, List.cons_append]
    refine .keep c _ _ (Ne.symm ha.1) ?_ ?_ (ih ha.2 ?_ ?_)
    · intro hc r' e
      cases a with
      | nil => exact hcr (by simp [hc])
      | cons d a =>
        simp only [List.cons_append, List.cons.injEq] at e
        exact ha.2 (by rw [e.1]; exact List.mem_cons_self)
    · intro body r' e
      -- the four bytes of the start lie in front of the line end
      have hp : commentStart <+: (c :: a) ++ ch '\n' :: b := ⟨body ++ bs "-->" ++ r', by rw [List.cons_append, e]; simp⟩
      by_cases hl : 4 ≤ (c :: a).length
      · apply hac2
        have : commentStart <+: c :: a := by
          rw [List.prefix_iff_eq_take] at hp ⊢
          rw [List.take_append_of_le_length (by rw [show commentStart.length = 4 by decide]; exact hl)] at hp
          exact hp
        exact this.isInfix
      · have hm : ch '\n' ∈ commentStart := by
          rw [List.prefix_iff_eq_take] at hp
          rw [hp, show commentStart.length = 4 by decide, List.take_append]
          obtain ⟨k, hk⟩ : ∃ k, 4 - (c :: a).length = k + 1 := ⟨4 - (c :: a).length - 1, by omega⟩
          rw [hk, List.take_succ_cons]; simp
        exact absurd hm (by decide)
    · intro h
      apply hcr
      cases a with
      | nil => simp at h
      | cons d a => rw [List.getLast?_cons_cons]; exact h
    · intro h; exact hac2 (h.trans (List.suffix_cons c a).isInfix)

example : html (bs "good\nmorning") = bs "goodmorning" :=
  C234_words_joined_violated (bs "good") (bs "morning") (by decide) (by decide)
    ((Www.indexOf_nil_iff _ _).mp (by decide +kernel)) (by decide)

/-- C234 violated: a minified text must be minified. Taking out a line end can make a comment of what was none, that
a second run takes out. -/
theorem C234_idempotent_violated (body : Bytes) (hb : ch '\n' ∉ body) (hc : ¬ commentStart <:+: bs "- " ++ body ++ bs "-->")
    (he : ¬ bs "-->" <:+: bs " " ++ body) :
    html (bs "<!-\n- " ++ body ++ bs "-->") = bs "<!-- " ++ body ++ bs "-->" ∧
    html (html (bs "<!-\n- " ++ body ++ bs "-->")) = [] := by
  have hk : ∀ (c : Byte) (r o : Bytes), c ≠ ch '\n' → c ≠ ch '\r' → r.take 3 ≠ bs "!--" → Stripped r o →
      Stripped (c :: r) (c :: o) := by
    intro c r o h1 h2 h3 h
    refine .keep c r o h1 (fun hc => absurd hc h2) ?_ h
    intro body r' e
    rw [show commentStart = ch '<' :: bs "!--" by decide] at e
    simp only [List.cons_append, List.cons.injEq] at e
    apply h3
    rw [e.2, List.append_assoc, List.append_assoc]; exact List.take_left' rfl
  have h1 : html (bs "<!-\n- " ++ body ++ bs "-->") = bs "<!-- " ++ body ++ bs "-->" := by
    rw [C145_html]
    have hB : Stripped (bs "- " ++ body ++ bs "-->") (bs "- " ++ body ++ bs "-->") := by
      refine (C145_html _ _).mp (((C145_html_text _).2.2).mpr ⟨?_, fun x b y e => hc ⟨x, b ++ bs "-->" ++ y, by rw [e]; simp⟩⟩)
      simp only [List.mem_append, not_or]
      exact ⟨⟨by decide, hb⟩, by decide⟩
    rw [show bs "<!-\n- " = ch '<' :: ch '!' :: ch '-' :: ch '\n' :: bs "- " by decide,
      show bs "<!-- " = ch '<' :: ch '!' :: ch '-' :: bs "- " by decide]
    simp only [List.cons_append]
    have e3 : bs "!--" = [ch '!', ch '-', ch '-'] := by decide
    rw [e3] at hk
    refine hk (ch '<') _ _ (by decide) (by decide) (fun h => ?_) ?_
    · exact absurd (List.cons.inj (List.cons.inj (List.cons.inj h).2).2).1 (by decide)
    refine hk (ch '!') _ _ (by decide) (by decide) (fun h => ?_) ?_
    · exact absurd (List.cons.inj h).1 (by decide)
    refine hk (ch '-') _ _ (by decide) (by decide) (fun h => ?_) ?_
    · exact absurd (List.cons.inj h).1 (by decide)
    exact .newline _ _ hB
  refine ⟨h1, ?_⟩
  rw [h1, C145_html]
  have e : bs "<!-- " ++ body ++ bs "-->" = commentStart ++ (bs " " ++ body) ++ bs "-->" ++ [] := by
    rw [show bs "<!-- " = commentStart ++ bs " " by decide]; simp
  rw [e]
  exact .comment _ _ _ he .nil

example : html (bs "<!-\n- secret -->") = bs "<!-- secret -->" ∧ html (html (bs "<!-\n- secret -->")) = [] :=
  C234_idempotent_violated (bs "secret ") (by decide) ((Www.indexOf_nil_iff _ _).mp (by decide +kernel))
    ((Www.indexOf_nil_iff _ _).mp (by decide +kernel))

variable {S E : Type}

/-- C145: minifying a codec fails without a change when the codec has no text, and otherwise gives the codec the
minified text and answers its answer; for HTML always, for the others if the minifier accepts the text. -/
theorem C145_codec (k : Codec S E) (min : Bytes → Option Bytes) (s : S) :
    (∀ e, k.marshal s = .error e → minify k min s = (s, some e) ∧ cssMinify k min s = (s, some e) ∧
      htmlMinify k s = (s, some e)) ∧
    (∀ raw m, k.marshal s = .ok raw → min raw = some m →
      minify k min s = k.unmarshal s m ∧ cssMinify k min s = k.unmarshal s m) ∧
    (∀ raw o, k.marshal s = .ok raw → Stripped raw o → htmlMinify k s = k.unmarshal s o) := by
  refine ⟨fun e h => ?_, fun raw m h hm => ?_, fun raw o h ho => ?_⟩
  · simp [minify, cssMinify, htmlMinify, h]
  · simp [minify, cssMinify, cssBytes, h, hm]
  · simp [htmlMinify, h, (C145_html raw o).mpr ho]

/-- C234 violated: a text the minifier rejects must be reported. The error is dropped: the answer is that of a
success and the text is as before. -/
theorem C234_error_dropped_violated (k : Codec S E) (min : Bytes → Option Bytes) (s : S) (raw : Bytes)
    (h : k.marshal s = .ok raw) (hm : min raw = none) : minify k min s = (s, none) := by
  simp [minify, h, hm]

/-- C234 violated: a style sheet the minifier rejects must be left as it is. The codec is given the empty text, and
the answer is that of a success. -/
theorem C234_css_lost_violated (k : Codec S E) (min : Bytes → Option Bytes) (s : S) (raw : Bytes)
    (h : k.marshal s = .ok raw) (hm : min raw = none) : cssMinify k min s = k.unmarshal s [] := by
  simp [cssMinify, cssBytes, h, hm]

/-- A file in memory, and a minifier that rejects a text with a brace open. -/
example : ∃ (k : Codec Bytes Unit) (min : Bytes → Option Bytes), k.marshal (bs "a{") = .ok (bs "a{") ∧
    min (bs "a{") = none ∧ cssMinify k min (bs "a{") = ([], none) ∧ minify k min (bs "a{") = (bs "a{", none) :=
  ⟨⟨fun s => .ok s, fun _ b => (b, none)⟩, fun _ => none, rfl, rfl, rfl, rfl⟩

example := C234_error_dropped_violated (S := Bytes) (E := Unit) ⟨fun s => .ok s, fun _ b => (b, none)⟩ (fun _ => none) (bs "a{") (bs "a{") rfl rfl

end Memar.Minify
