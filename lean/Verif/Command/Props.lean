import Verif.Command.Model

/-!
# C44, C82, C83: the command line
-/

namespace Memar.Command
open Memar

/-! ## C44: flags -/

/-- Specification: a name as it can be written on the command line. -/
def GoodName (n : Bytes) : Prop :=
  n ≠ [] ∧ n.head? ≠ some (ch '-') ∧ ch '=' ∉ n

instance (n : Bytes) : Decidable (GoodName n) := inferInstanceAs (Decidable (_ ∧ _ ∧ _))

/-- Specification: the ways to write a flag: `-name=value`, `-name value` and, for a boolean, `-name`.
`two` chooses `--`, and `eq` adds an equals sign with nothing behind it. -/
inductive Form where
  | withValue (two : Bool) (name : Bytes) (field : Field) (value : Bytes)
  | spaced (two eq : Bool) (name : Bytes) (field : Field) (value : Bytes)
  | bare (two eq : Bool) (name : Bytes) (field : Field)

namespace Form

def dash (two : Bool) : Bytes := if two then bs "--" else bs "-"
def tail (eq : Bool) : Bytes := if eq then bs "=" else []

/-- The arguments of the form. -/
def render : Form → List Bytes
  | .withValue two n _ v => [dash two ++ n ++ ch '=' :: v]
  | .spaced two eq n _ v => [dash two ++ n ++ tail eq, v]
  | .bare two eq n _ => [dash two ++ n ++ tail eq]

/-- The flag that is set, and the text it is given. -/
def assigns : Form → Field × Bytes
  | .withValue _ _ f v => (f, v)
  | .spaced _ _ _ f v => (f, v)
  | .bare _ _ _ f => (f, bs "true")

def name : Form → Bytes
  | .withValue _ n _ _ => n
  | .spaced _ _ n _ _ => n
  | .bare _ _ n _ => n

/-- The form is the right one for the flag, which is declared and accepts the text. -/
def Valid (fields : List Field) (accepts : Field → Bytes → Bool) (fm : Form) : Prop :=
  GoodName fm.name ∧ lookup fields fm.name = some fm.assigns.1 ∧
  accepts fm.assigns.1 fm.assigns.2 = true ∧
  match fm with
  | .withValue _ _ _ v => v ≠ []
  | .spaced _ _ _ f _ => f.isBool = false
  | .bare _ _ _ f => f.isBool = true

end Form

open Form

theorem splitAtEq_none (b t : Bytes) (h : ch '=' ∉ t) : splitAtEq b t = (b ++ t, []) := by
  induction t generalizing b with
  | nil => simp [splitAtEq]
  | cons c t ih =>
    rw [splitAtEq, if_neg (fun e => h (by simp [e])), ih _ (fun e => h (by simp [e]))]
    simp

theorem splitAtEq_some (b n v : Bytes) (h : ch '=' ∉ n) : splitAtEq b (n ++ ch '=' :: v) = (b ++ n, v) := by
  induction n generalizing b with
  | nil => simp [splitAtEq]
  | cons c t ih =>
    rw [List.cons_append, splitAtEq, if_neg (fun e => h (by simp [e])), ih _ (fun e => h (by simp [e]))]
    simp

theorem mem_split (c : Byte) (t : Bytes) (h : c ∈ t) : ∃ n v, t = n ++ c :: v ∧ c ∉ n := by
  induction t with
  | nil => simp at h
  | cons x t ih =>
    by_cases hx : x = c
    · exact ⟨[], t, by simp [hx], by simp⟩
    · obtain ⟨n, v, e, hn⟩ := ih (by simpa [Ne.symm hx] using h)
      exact ⟨x :: n, v, by simp [e], by simp [hn, Ne.symm hx]⟩

theorem set_some (accepts : Field → Bytes → Bool) (s : FlagSet) (n v : Bytes) (f : Field)
    (hl : lookup s.fields n = some f) (ha : accepts f v = true) :
    set accepts s n v = ({ s with sets := s.sets ++ [(f, v)] }, none) := by
  simp [set, hl, ha]

theorem set_ok (accepts : Field → Bytes → Bool) (s : FlagSet) (n v : Bytes)
    (h : (set accepts s n v).2 = none) : ∃ f, lookup s.fields n = some f ∧ accepts f v = true ∧
      set accepts s n v = ({ s with sets := s.sets ++ [(f, v)] }, none) := by
  unfold set at h
  split at h
  · simp at h
  · next f hl =>
    split at h
    · next ha => exact ⟨f, hl, ha, set_some accepts s n v f hl ha⟩
    · simp at h

/-- `parseOne` on an argument of one or two dashes, a good name and a tail. -/
theorem parseOne_named (accepts : Field → Bytes → Bool) (s : FlagSet) (two : Bool) (n t : Bytes)
    (rest : List Bytes) (hn : GoodName n) (ht : t = [] ∨ ∃ v, t = ch '=' :: v)
    (ha : s.args = (dash two ++ n ++ t) :: rest) :
    parseOne accepts s = checkAndSet accepts { s with args := rest } n (t.drop 1) := by
  obtain ⟨h1, h2, h3⟩ := hn
  cases n with
  | nil => exact absurd rfl h1
  | cons c n =>
    have hc1 : c ≠ ch '-' := by simpa using h2
    have hc2 : c ≠ ch '=' := fun e => h3 (by simp [e])
    have hn : ch '=' ∉ n := fun e => h3 (by simp [e])
    have hsp : splitAtEq [c] (n ++ t) = (c :: n, t.drop 1) := by
      rcases ht with rfl | ⟨v, rfl⟩
      · rw [List.append_nil, splitAtEq_none _ _ hn]; rfl
      · rw [splitAtEq_some _ _ _ hn]; rfl
    have hp : parseFlag accepts s rest (c :: (n ++ t)) = checkAndSet accepts { s with args := rest } (c :: n) (t.drop 1) := by
      rw [parseFlag]
      simp only [hc1, hc2, or_self, if_false, hsp]
    rw [parseOne, ha]
    cases two with
    | false =>
      have : dash false ++ (c :: n) ++ t = ch '-' :: c :: (n ++ t) := by simp [dash, bs]; rfl
      rw [this]
      simp only [ne_eq, not_true_eq_false, if_false, hc1]
      exact hp
    | true =>
      have : dash true ++ (c :: n) ++ t = ch '-' :: ch '-' :: c :: (n ++ t) := by
        simp [dash, bs]; rfl
      rw [this]
      simp only [ne_eq, not_true_eq_false, if_false, if_true, reduceCtorEq]
      exact hp

/-- One form is read as what it assigns. -/
theorem parseOne_form (accepts : Field → Bytes → Bool) (s : FlagSet) (fm : Form) (rest : List Bytes)
    (hv : fm.Valid s.fields accepts) (ha : s.args = fm.render ++ rest) :
    parseOne accepts s = ({ s with args := rest, sets := s.sets ++ [fm.assigns] }, none) := by
  obtain ⟨hn, hl, hacc, hk⟩ := hv
  have htail : ∀ eq, tail eq = [] ∨ ∃ v, tail eq = ch '=' :: v := by
    intro eq; cases eq
    · exact .inl rfl
    · exact .inr ⟨[], rfl⟩
  have hdrop : ∀ eq, (tail eq).drop 1 = [] := by intro eq; cases eq <;> rfl
  cases fm with
  | withValue two n f v =>
    rw [parseOne_named accepts s two n _ rest hn (.inr ⟨v, rfl⟩) ha, List.drop_one, List.tail_cons,
      checkAndSet, if_pos (List.length_pos_iff.2 hk)]
    exact set_some accepts _ n v f hl hacc
  | bare two eq n f =>
    rw [parseOne_named accepts s two n _ rest hn (htail eq) ha, hdrop, checkAndSet, if_neg (by simp)]
    rw [show lookup ({ s with args := rest } : FlagSet).fields n = some f from hl]
    have hk : f.isBool = true := hk
    simp only [hk, if_true]
    exact set_some accepts _ n _ f hl hacc
  | spaced two eq n f v =>
    rw [parseOne_named accepts s two n _ (v :: rest) hn (htail eq) ha, hdrop, checkAndSet, if_neg (by simp)]
    rw [show lookup ({ s with args := v :: rest } : FlagSet).fields n = some f from hl]
    have hk : f.isBool = false := hk
    simp only [hk, Bool.false_eq_true, if_false]
    exact set_some accepts _ n _ f hl hacc

/-- A successful step reads one form. -/
theorem parseOne_ok (accepts : Field → Bytes → Bool) (s : FlagSet) (hne : s.args ≠ [])
    (h : (parseOne accepts s).2 = none) :
    ∃ fm : Form, fm.Valid s.fields accepts ∧ ∃ rest, s.args = fm.render ++ rest ∧
      parseOne accepts s = ({ s with args := rest, sets := s.sets ++ [fm.assigns] }, none) := by
  have key : ∀ two n t rest, GoodName n → (t = [] ∨ ∃ v, t = ch '=' :: v) →
      s.args = (dash two ++ n ++ t) :: rest →
      ∃ fm : Form, fm.Valid s.fields accepts ∧ ∃ rest, s.args = fm.render ++ rest := by
    intro two n t rest hn ht ha
    rw [parseOne_named accepts s two n t rest hn ht ha] at h
    unfold checkAndSet at h
    split at h
    · next hpos =>
      obtain ⟨f, hl, hacc, _⟩ := set_ok _ _ _ _ h
      rcases ht with rfl | ⟨v, rfl⟩
      · simp at hpos
      · exact ⟨.withValue two n f v, ⟨hn, hl, hacc, by intro e; subst e; simp at hpos⟩, rest, ha⟩
    · next hpos =>
      have hte : ∃ eq, t = tail eq := by
        rcases ht with rfl | ⟨v, rfl⟩
        · exact ⟨false, rfl⟩
        · refine ⟨true, ?_⟩
          have : v = [] := by simpa using hpos
          subst this; rfl
      obtain ⟨eq, rfl⟩ := hte
      split at h
      · simp at h
      · next f hf =>
        have hf : lookup s.fields n = some f := hf
        split at h
        · next hb =>
          obtain ⟨f', hl, hacc, _⟩ := set_ok _ _ _ _ h
          have hl : lookup s.fields n = some f' := hl
          rw [hf] at hl; injection hl with hl; subst hl
          exact ⟨.bare two eq n f, ⟨hn, hf, hacc, hb⟩, rest, ha⟩
        · next hb =>
          split at h
          · next v rest' hr =>
            have hr : rest = v :: rest' := hr
            subst hr
            obtain ⟨f', hl, hacc, _⟩ := set_ok _ _ _ _ h
            have hl : lookup s.fields n = some f' := hl
            rw [hf] at hl; injection hl with hl; subst hl
            exact ⟨.spaced two eq n f v, ⟨hn, hf, hacc, by simpa using hb⟩, rest', ha⟩
          · simp at h
  suffices hs : ∃ fm : Form, fm.Valid s.fields accepts ∧ ∃ rest, s.args = fm.render ++ rest by
    obtain ⟨fm, hv, rest, ha⟩ := hs
    exact ⟨fm, hv, rest, ha, parseOne_form accepts s fm rest hv ha⟩
  -- the shape of the argument
  have shape : ∀ (c : Byte) (u : Bytes), c ≠ ch '-' → c ≠ ch '=' →
      ∃ n t, c :: u = n ++ t ∧ GoodName n ∧ (t = [] ∨ ∃ v, t = ch '=' :: v) := by
    intro c u h1 h2
    by_cases hu : ch '=' ∈ u
    · obtain ⟨n, v, e, hn⟩ := mem_split _ u hu
      exact ⟨c :: n, ch '=' :: v, by simp [e], ⟨by simp, by simpa using h1, by simp [hn, Ne.symm h2]⟩,
        .inr ⟨v, rfl⟩⟩
    · exact ⟨c :: u, [], by simp, ⟨by simp, by simpa using h1, by simp [hu, Ne.symm h2]⟩, .inl rfl⟩
  cases ha : s.args with
  | nil => exact absurd ha hne
  | cons a rest =>
    rw [← ha]
    unfold parseOne at h
    rw [ha] at h
    simp only at h
    match a with
    | [] => simp at h
    | [_] => simp at h
    | c :: d :: t =>
      simp only at h
      split at h
      · simp at h
      · next hc =>
        have hc : c = ch '-' := Decidable.byContradiction hc
        subst hc
        split at h
        · next hd =>
          subst hd
          split at h
          · simp at h
          · cases t with
            | nil => simp [parseFlag] at h
            | cons x u =>
              unfold parseFlag at h
              simp only at h
              split at h
              · simp at h
              · next hx =>
                have hx1 := fun e => hx (.inl e)
                have hx2 := fun e => hx (.inr e)
                obtain ⟨n, t, e, hn, ht⟩ := shape x u hx1 hx2
                refine key true n t rest hn ht ?_
                rw [ha, List.append_assoc, ← e]; rfl
        · next hd =>
          unfold parseFlag at h
          simp only at h
          split at h
          · simp at h
          · next hx =>
            have hx2 := fun e => hx (.inr e)
            obtain ⟨n, t, e, hn, ht⟩ := shape d t hd hx2
            refine key false n t rest hn ht ?_
            rw [ha, List.append_assoc, ← e]; rfl

theorem parse_form (accepts : Field → Bytes → Bool) (s : FlagSet) (fm : Form) (rest : List Bytes)
    (hv : fm.Valid s.fields accepts) (ha : s.args = fm.render ++ rest) :
    parse accepts s = parse accepts { s with args := rest, sets := s.sets ++ [fm.assigns] } := by
  have hne : s.args ≠ [] := by rw [ha]; cases fm <;> simp [render]
  rw [parse]
  rw [dif_neg hne]
  have h := parseOne_form accepts s fm rest hv ha
  rw [dif_pos (by rw [h]), h]

/-- C44: arguments made of well-formed flags assign the values in order, each to the flag its name
looks up, and leave no arguments; with anything behind them, parsing goes on there. -/
theorem C44_assigns_in_order (accepts : Field → Bytes → Bool) (s : FlagSet) (forms : List Form)
    (rest : List Bytes) (hv : ∀ fm ∈ forms, fm.Valid s.fields accepts)
    (ha : s.args = forms.flatMap render ++ rest) :
    parse accepts s = parse accepts { s with args := rest, sets := s.sets ++ forms.map assigns } ∧
    (rest = [] → parse accepts s = ({ s with args := [], sets := s.sets ++ forms.map assigns }, none)) := by
  suffices h : parse accepts s = parse accepts { s with args := rest, sets := s.sets ++ forms.map assigns } by
    refine ⟨h, ?_⟩
    rintro rfl
    rw [h, parse, dif_pos rfl]
  induction forms generalizing s with
  | nil =>
    have : s.args = rest := by simpa using ha
    subst this
    simp
  | cons fm forms ih =>
    rw [List.flatMap_cons, List.append_assoc] at ha
    rw [parse_form accepts s fm _ (hv fm (by simp)) ha,
      ih { s with args := forms.flatMap render ++ rest, sets := s.sets ++ [fm.assigns] }
        (fun x hx => hv x (by simp [hx])) rfl]
    simp

/-- C44: for every list of arguments, exactly a prefix of valid forms is assigned, in order: no
undeclared flag is ever set; and there is no error if and only if this prefix is everything. -/
theorem C44_sound (accepts : Field → Bytes → Bool) (s : FlagSet) :
    ∃ (forms : List Form) (rest : List Bytes), (∀ fm ∈ forms, fm.Valid s.fields accepts) ∧
      s.args = forms.flatMap render ++ rest ∧
      (parse accepts s).1.sets = s.sets ++ forms.map assigns ∧
      ((parse accepts s).2 = none ↔ rest = []) ∧
      (∀ a ∈ (parse accepts s).1.args, a ∈ rest) := by
  suffices H : ∀ n (s : FlagSet), s.args.length = n → ∃ (forms : List Form) (rest : List Bytes),
      (∀ fm ∈ forms, fm.Valid s.fields accepts) ∧
      s.args = forms.flatMap render ++ rest ∧
      (parse accepts s).1.sets = s.sets ++ forms.map assigns ∧
      ((parse accepts s).2 = none ↔ rest = []) ∧
      (∀ a ∈ (parse accepts s).1.args, a ∈ rest) from H _ s rfl
  intro n
  induction n using Nat.strongRecOn with
  | ind n ih =>
    intro s hn
    by_cases hne : s.args = []
    · refine ⟨[], [], by simp, by simp [hne], ?_, ?_, ?_⟩ <;> rw [parse, dif_pos hne] <;> simp [hne]
    · by_cases h : (parseOne accepts s).2 = none
      · obtain ⟨fm, hv, rest, ha, hp⟩ := parseOne_ok accepts s hne h
        have hlen : rest.length < n := by
          have := parseOne_args accepts s hne h
          rw [hp] at this
          simpa [hn] using this
        obtain ⟨forms, rest', h1, h2, h3, h4, h5⟩ := ih _ hlen
          { s with args := rest, sets := s.sets ++ [fm.assigns] } rfl
        have h2 : rest = forms.flatMap render ++ rest' := h2
        refine ⟨fm :: forms, rest', ?_, ?_, ?_, ?_, ?_⟩
        · intro x hx
          rcases List.mem_cons.1 hx with rfl | hx
          · exact hv
          · exact h1 x hx
        · rw [ha, List.flatMap_cons, List.append_assoc, ← h2]
        · rw [parse_form accepts s fm rest hv ha, h3]; simp
        · rw [parse_form accepts s fm rest hv ha, h4]
        · rw [parse_form accepts s fm rest hv ha]; exact h5
      · refine ⟨[], s.args, by simp, by simp, ?_, ?_, ?_⟩
        · rw [parse, dif_neg hne, dif_neg h]
          -- a step that fails sets nothing
          have hset : ∀ (t : FlagSet) n v, (set accepts t n v).2 ≠ none → (set accepts t n v).1 = t := by
            intro t n v
            unfold set
            split
            · simp
            · split <;> simp
          have hcs : ∀ (t : FlagSet) n v, (checkAndSet accepts t n v).2 ≠ none →
              (checkAndSet accepts t n v).1.sets = t.sets := by
            intro t n v
            unfold checkAndSet
            split
            · intro h; rw [hset _ _ _ h]
            · split
              · simp
              · split
                · intro h; rw [hset _ _ _ h]
                · split
                  · intro h; rw [hset _ _ _ h]
                  · simp
          have hpf : ∀ rest name, (parseFlag accepts s rest name).2 ≠ none →
              (parseFlag accepts s rest name).1.sets = s.sets := by
            intro rest name
            unfold parseFlag
            split
            · simp
            · split
              · simp
              · intro h; exact hcs _ _ _ h
          simp only [List.map_nil, List.append_nil]
          revert h
          unfold parseOne
          split
          · simp
          · split
            · split
              · simp
              · split
                · split
                  · simp
                  · intro h; exact hpf _ _ h
                · intro h; exact hpf _ _ h
            · simp
        · rw [parse, dif_neg hne, dif_neg h]
          exact ⟨fun e => absurd e h, fun e => absurd e hne⟩
        · rw [parse, dif_neg hne, dif_neg h]
          have hcs : ∀ (t : FlagSet) n v, ∀ a ∈ (checkAndSet accepts t n v).1.args, a ∈ t.args := by
            intro t n v a
            unfold checkAndSet
            split
            · rw [(set_args accepts t n v).1]; exact id
            · split
              · exact id
              · split
                · rw [(set_args accepts t n _).1]; exact id
                · split
                  · next hr =>
                    rw [(set_args accepts _ n _).1, hr]
                    intro ha; exact List.mem_cons_of_mem _ ha
                  · exact id
          have hpf : ∀ rest name, (∀ a ∈ rest, a ∈ s.args) →
              ∀ a ∈ (parseFlag accepts s rest name).1.args, a ∈ s.args := by
            intro rest name hr a
            unfold parseFlag
            split
            · exact id
            · split
              · exact id
              · intro ha; exact hr a (hcs _ _ _ a ha)
          unfold parseOne
          split
          · intro a ha; exact ha
          · next x rest hx =>
            have hr : ∀ a ∈ rest, a ∈ s.args := fun a ha => by rw [hx]; exact List.mem_cons_of_mem _ ha
            split
            · split
              · intro a ha; exact ha
              · split
                · split
                  · intro a ha; exact hr a ha
                  · exact hpf _ _ hr
                · exact hpf _ _ hr
            · intro a ha; exact ha

/-- C44: declarations are refused (with a panic) exactly if a name begins with a dash, contains an
equals sign, or is declared twice. -/
theorem C44_declarations (fields : List Field) (args : List Bytes) :
    init fields args = none ↔
      (∃ f ∈ fields, f.name.head? = some (ch '-') ∨ ch '=' ∈ f.name) ∨
      ∃ i j, i < j ∧ j < fields.length ∧
        (fields[i]?.map (·.name)) = (fields[j]?.map (·.name)) := by
  have hpw : ¬ (fields.map (·.name)).Pairwise (· ≠ ·) ↔ ∃ i j, i < j ∧ j < fields.length ∧
        (fields[i]?.map (·.name)) = (fields[j]?.map (·.name)) := by
    rw [List.pairwise_iff_getElem]
    constructor
    · intro h
      apply Classical.byContradiction
      intro hn
      apply h
      intro i j hi hj hij he
      apply hn
      rw [List.length_map] at hi hj
      refine ⟨i, j, hij, hj, ?_⟩
      rw [List.getElem?_eq_getElem hi, List.getElem?_eq_getElem hj]
      simpa using he
    · intro ⟨i, j, hij, hj, he⟩ h
      have hi : i < fields.length := by omega
      refine h i j (by simpa using hi) (by simpa using hj) hij ?_
      rw [List.getElem?_eq_getElem hi, List.getElem?_eq_getElem hj] at he
      simpa using he
  have hall : (fields.all fun f => !(f.name.head? == some (ch '-')) && !(f.name.contains (ch '='))) = true ↔
      ¬ ∃ f ∈ fields, f.name.head? = some (ch '-') ∨ ch '=' ∈ f.name := by
    simp
  rw [init]
  by_cases h : checkFields fields = true
  · rw [if_pos h]
    rw [checkFields, Bool.and_eq_true, hall, decide_eq_true_iff] at h
    simp only [reduceCtorEq, false_iff]
    rintro (hc | hc)
    · exact h.1 hc
    · exact (hpw.2 hc) h.2
  · rw [if_neg h]
    simp only [true_iff]
    rw [checkFields, Bool.and_eq_true, hall, decide_eq_true_iff] at h
    rw [← hpw]
    by_cases h1 : ∃ f ∈ fields, f.name.head? = some (ch '-') ∨ ch '=' ∈ f.name
    · exact .inl h1
    · exact .inr fun h2 => h ⟨h1, h2⟩

/-- C195: an empty value cannot be written: behind `-name=` the next argument is taken as the value (and
`true` for a boolean), for every flag. -/
theorem C195_empty_value_violated (accepts : Field → Bytes → Bool) (fields : List Field) (f : Field)
    (n v : Bytes) (hn : GoodName n) (hl : lookup fields n = some f) :
    (f.isBool = false → accepts f v = true →
      parse accepts ⟨fields, [], [bs "-" ++ n ++ bs "=", v]⟩ = (⟨fields, [(f, v)], []⟩, none)) ∧
    (f.isBool = true → accepts f (bs "true") = true →
      parse accepts ⟨fields, [], [bs "-" ++ n ++ bs "="]⟩ = (⟨fields, [(f, bs "true")], []⟩, none)) := by
  constructor
  · intro hb ha
    refine (C44_assigns_in_order accepts ⟨fields, [], _⟩ [.spaced false true n f v] [] ?_ ?_).2 rfl
    · intro fm hfm; simp only [List.mem_singleton] at hfm; subst hfm
      exact ⟨hn, hl, ha, hb⟩
    · rfl
  · intro hb ha
    refine (C44_assigns_in_order accepts ⟨fields, [], _⟩ [.bare false true n f] [] ?_ ?_).2 rfl
    · intro fm hfm; simp only [List.mem_singleton] at hfm; subst hfm
      exact ⟨hn, hl, ha, hb⟩
    · rfl

example := C195_empty_value_violated (fun _ _ => true) [⟨bs "port", bs "p", false⟩] _ (bs "port") (bs "80") (by decide) rfl

/-- C195: abbreviations are not checked: a flag can be declared that can never be set by its name,
because an earlier flag has that abbreviation. -/
theorem C195_abbreviation_violated (f g : Field) (habbr : f.abbr = g.name) (fields : List Field) :
    lookup (f :: fields) g.name = some f := by
  simp [lookup, habbr]

example := C195_abbreviation_violated ⟨bs "port", bs "path", false⟩ ⟨bs "path", [], false⟩ rfl [⟨bs "path", [], false⟩]

/-- C44: the flag a name stands for is the first declared one that has it as name or abbreviation. -/
theorem C44_lookup (fields : List Field) (n : Bytes) (f : Field) :
    lookup fields n = some f ↔ ∃ before after, fields = before ++ f :: after ∧ (f.name = n ∨ f.abbr = n) ∧
      ∀ g ∈ before, g.name ≠ n ∧ g.abbr ≠ n := by
  rw [lookup, List.find?_eq_some_iff_append]
  simp only [Bool.or_eq_true, beq_iff_eq, Bool.not_eq_true', Bool.or_eq_false_iff, beq_eq_false_iff_ne]
  constructor
  · rintro ⟨h, a, b, e, hb⟩; exact ⟨a, b, e, h, hb⟩
  · rintro ⟨a, b, e, h, hb⟩; exact ⟨h, a, b, e, hb⟩

def exField : Field := ⟨bs "port", bs "p", false⟩
def exBool : Field := ⟨bs "verbose", bs "v", true⟩

example : parse (fun _ _ => true) ⟨[exField, exBool], [], [bs "-p", bs "80", bs "--verbose", bs "--port=90"]⟩
    = (⟨[exField, exBool], [(exField, bs "80"), (exBool, bs "true"), (exField, bs "90")], []⟩, none) := by
  have hp : lookup [exField, exBool] (bs "p") = some exField := by decide
  have hv : lookup [exField, exBool] (bs "verbose") = some exBool := by decide
  have hq : lookup [exField, exBool] (bs "port") = some exField := by decide
  refine (C44_assigns_in_order (fun _ _ => true) ⟨[exField, exBool], [], _⟩
    [.spaced false false (bs "p") exField (bs "80"), .bare true false (bs "verbose") exBool,
      .withValue true (bs "port") exField (bs "90")] [] ?_ ?_).2 rfl
  · intro fm hfm
    simp only [List.mem_cons, List.not_mem_nil, or_false] at hfm
    rcases hfm with rfl | rfl | rfl
    · exact ⟨by decide, hp, rfl, rfl⟩
    · exact ⟨by decide, hv, rfl, rfl⟩
    · exact ⟨by decide, hq, rfl, by decide⟩
  · decide

/-! ## C82: objects as arguments -/

/-- C82: the arguments of an object are, in order, the name and the text of each field whose text is
not empty.  Missing: they are not read back, refuted below. -/
theorem C82_to_arguments_partial (fields : List Field) (value : Field → Bytes) :
    toCLA fields value
      = ((fields.filter fun f => value f ≠ []).map fun f => [f.name, value f]).flatten := by
  induction fields with
  | nil => rfl
  | cons f fs ih =>
    rw [toCLA, List.flatMap_cons]
    rw [toCLA] at ih
    rw [ih]
    by_cases h : value f = []
    · simp [h]
    · simp [h]

theorem parse_bad (accepts : Field → Bytes → Bool) (s : FlagSet) (a : Bytes) (rest : List Bytes)
    (ha : s.args = a :: rest) (hd : a.head? ≠ some (ch '-')) :
    parse accepts s = (s, some .flagBadSyntax) := by
  have hp : parseOne accepts s = (s, some .flagBadSyntax) := by
    unfold parseOne
    rw [ha]
    match a with
    | [] => rfl
    | [_] => rfl
    | c :: d :: t =>
      have hc : c ≠ ch '-' := by simpa using hd
      simp [hc]
  rw [parse, dif_neg (by rw [ha]; simp), dif_neg (by rw [hp]; simp), hp]

/-- C82: whenever an object has a field with a text, reading its arguments back fails at the first of
them, and nothing is set: names are written without a dash. -/
theorem C82_roundtrip_violated (accepts : Field → Bytes → Bool) (fields : List Field)
    (value : Field → Bytes) (hex : ∃ f ∈ fields, value f ≠ []) :
    ∀ r, fromCLA accepts fields (toCLA fields value) = some r →
      r = (⟨fields, [], toCLA fields value⟩, some .flagBadSyntax) := by
  intro r hr
  obtain ⟨s, hs, rfl⟩ := Option.map_eq_some_iff.1 hr
  have hchk : init fields (toCLA fields value) ≠ none := by rw [hs]; simp
  have hnames : ∀ f ∈ fields, f.name.head? ≠ some (ch '-') := by
    intro f hf he
    exact hchk ((C44_declarations fields _).2 (.inl ⟨f, hf, .inl he⟩))
  unfold init at hs
  split at hs
  · injection hs with hs
    subst hs
    have hsub : ∀ l : List Field, (∃ f ∈ l, value f ≠ []) → (∀ f ∈ l, f.name.head? ≠ some (ch '-')) →
        ∃ a rest, toCLA l value = a :: rest ∧ a.head? ≠ some (ch '-') := by
      intro l
      induction l with
      | nil => simp
      | cons f l ih =>
        intro hex hn
        by_cases hv : value f = []
        · obtain ⟨g, hg, hgv⟩ := hex
          rcases List.mem_cons.1 hg with rfl | hg
          · exact absurd hv hgv
          · obtain ⟨a, rest, e, ha⟩ := ih ⟨g, hg, hgv⟩ fun x hx => hn x (List.mem_cons_of_mem _ hx)
            refine ⟨a, rest, ?_, ha⟩
            rw [toCLA, List.flatMap_cons, if_pos hv]
            exact e
        · refine ⟨f.name, value f :: toCLA l value, ?_, hn f (by simp)⟩
          rw [toCLA, List.flatMap_cons, if_neg hv]; rfl
    obtain ⟨a, rest, e, ha⟩ := hsub fields hex hnames
    exact parse_bad accepts _ a rest e ha
  · simp at hs

example : toCLA [exField, exBool] (fun f => if f = exField then bs "80" else []) = [bs "port", bs "80"] := by
  decide

/-! ## C83: commands -/

namespace Cmd

/-- Specification: the arguments lead to a handler: each but the remaining ones is the name or the
abbreviation of the first sub command that answers to it. -/
inductive Leads : Cmd → List Bytes → Nat → List Bytes → Prop where
  | here (n a l id args) : Leads (.handler n a l id) args id args
  | sub (n a l) (before : List Cmd) (c : Cmd) (after : List Cmd) (arg : Bytes) (args : List Bytes)
      (id : Nat) (rest : List Bytes) (hb : ∀ x ∈ before, x.answersTo arg = false)
      (hn : arg = c.name ∨ arg = c.abbr) (h : Leads c args id rest) :
      Leads (.group n a l (before ++ c :: after)) (arg :: args) id rest

theorem serveSubs_eq (subs : List Cmd) (args : List Bytes) (n : Bytes) :
    serve.serveSubs subs args n = match subCommand subs n with
      | none => .failed .serviceNotFound
      | some c => if n ≠ c.name ∧ n ≠ c.abbr then .failed .serviceCallByAlias
        else match args with
          | [] => .panics
          | _ :: rest => serve c rest := by
  induction subs with
  | nil => rw [serve.serveSubs]; rfl
  | cons c cs ih =>
    rw [serve.serveSubs.eq_def]
    simp only
    by_cases h : c.answersTo n = true
    · have hf : subCommand (c :: cs) n = some c := List.find?_cons_of_pos h
      rw [if_pos h, hf]
      cases args <;> rfl
    · have hf : subCommand (c :: cs) n = subCommand cs n := List.find?_cons_of_neg h
      rw [if_neg h, ih, hf]

/-- C83: a handler runs, with the remaining arguments, exactly if the arguments lead to it. -/
theorem C83_dispatch (c : Cmd) (args : List Bytes) (id : Nat) (rest : List Bytes) :
    serve c args = .handled id rest ↔ Leads c args id rest := by
  induction args generalizing c with
  | nil =>
    cases c with
    | handler n a l i =>
      rw [serve]
      constructor
      · intro h; injection h with h1 h2; subst h1 h2; exact .here ..
      · intro h; cases h; rfl
    | group n a l subs =>
      rw [serve, serveSubs_eq]
      constructor
      · intro h
        split at h
        · simp at h
        · split at h <;> simp at h
      · intro h; cases h
  | cons arg args ih =>
    cases c with
    | handler n a l i =>
      rw [serve]
      constructor
      · intro h; injection h with h1 h2; subst h1 h2; exact .here ..
      · intro h; cases h; rfl
    | group n a l subs =>
      rw [serve, serveSubs_eq]
      rw [show (arg :: args).headD (bs "help") = arg from rfl]
      constructor
      · intro h
        split at h
        · simp at h
        · next c hc =>
          split at h
          · simp at h
          · next hn =>
            obtain ⟨hp, before, after, e, hb⟩ := List.find?_eq_some_iff_append.1 hc
            subst e
            refine .sub n a l before c after arg args id rest (fun x hx => by simpa using hb x hx) ?_
              ((ih c).1 h)
            by_cases h1 : arg = c.name
            · exact .inl h1
            · by_cases h2 : arg = c.abbr
              · exact .inr h2
              · exact absurd ⟨h1, h2⟩ hn
      · intro h
        cases h with
        | sub _ _ _ before c after _ _ _ _ hb hn h =>
          have hans : c.answersTo arg = true := by
            rcases hn with rfl | rfl <;> simp [answersTo]
          have hf : subCommand (before ++ c :: after) arg = some c := by
            rw [subCommand, List.find?_eq_some_iff_append]
            exact ⟨hans, before, after, rfl, fun x hx => by simp [hb x hx]⟩
          rw [hf]
          simp only
          rw [if_neg (by rintro ⟨h1, h2⟩; exact hn.elim h1 h2)]
          exact (ih c).2 h

/-- C83: the remaining arguments are the end of the arguments. -/
theorem C83_rest_is_suffix (c : Cmd) (args : List Bytes) (id : Nat) (rest : List Bytes)
    (h : serve c args = .handled id rest) : ∃ path, args = path ++ rest := by
  replace h := (C83_dispatch c args id rest).1 h
  induction h with
  | here => exact ⟨[], rfl⟩
  | sub n a l before c after arg args id rest hb hn h ih =>
    obtain ⟨path, e⟩ := ih
    exact ⟨arg :: path, by simp [e]⟩

example := C83_rest_is_suffix (.group (bs "go") [] [] [.group (bs "mod") (bs "m") [] [.handler (bs "tidy") [] [bs "clean"] 7]])
    [bs "m", bs "tidy", bs "-v"] 7 [bs "-v"] (by decide +kernel)

/-- C83: the sub command a name stands for is the first that has it as name, as abbreviation or among its
aliases; no sub command answers to other names. -/
theorem C83_sub_command (subs : List Cmd) (n : Bytes) :
    (∀ c, subCommand subs n = some c ↔ ∃ before after, subs = before ++ c :: after ∧
      (n = c.name ∨ n = c.abbr ∨ n ∈ c.aliases) ∧
      ∀ g ∈ before, n ≠ g.name ∧ n ≠ g.abbr ∧ n ∉ g.aliases) ∧
    (subCommand subs n = none ↔ ∀ g ∈ subs, n ≠ g.name ∧ n ≠ g.abbr ∧ n ∉ g.aliases) := by
  have h : ∀ c : Cmd, c.answersTo n = true ↔ (n = c.name ∨ n = c.abbr ∨ n ∈ c.aliases) := by
    intro c
    simp only [answersTo, Bool.or_eq_true, beq_iff_eq, List.any_eq_true, or_assoc]
    constructor
    · rintro (h | h | ⟨x, hx, rfl⟩)
      · exact .inl h.symm
      · exact .inr (.inl h.symm)
      · exact .inr (.inr hx)
    · rintro (h | h | h)
      · exact .inl h.symm
      · exact .inr (.inl h.symm)
      · exact .inr (.inr ⟨n, h, rfl⟩)
  have h' : ∀ c : Cmd, ¬c.answersTo n = true ↔ (n ≠ c.name ∧ n ≠ c.abbr ∧ n ∉ c.aliases) := by
    intro c; rw [h]; simp only [not_or]
  constructor
  · intro c
    rw [subCommand, List.find?_eq_some_iff_append, h]
    constructor
    · rintro ⟨hc, a, b, e, hb⟩
      exact ⟨a, b, e, hc, fun g hg => (h' g).1 (by simpa using hb g hg)⟩
    · rintro ⟨a, b, e, hc, hb⟩
      exact ⟨hc, a, b, e, fun g hg => by simpa using (h' g).2 (hb g hg)⟩
  · rw [subCommand, List.find?_eq_none]
    exact forall_congr' fun c => imp_congr_right fun _ => h' c

/-- C83: an unknown name is reported as not found, and a name that is only an alias of the first sub
command that answers is refused: neither runs anything. -/
theorem C83_refused (n a : Bytes) (l : List Bytes) (subs : List Cmd) (arg : Bytes) (args : List Bytes) :
    ((∀ c ∈ subs, c.answersTo arg = false) →
      serve (.group n a l subs) (arg :: args) = .failed .serviceNotFound) ∧
    (∀ c, subCommand subs arg = some c → arg ≠ c.name → arg ≠ c.abbr →
      serve (.group n a l subs) (arg :: args) = .failed .serviceCallByAlias) := by
  constructor
  · intro h
    rw [serve, serveSubs_eq]
    have : subCommand subs arg = none := by
      rw [subCommand, List.find?_eq_none]
      intro c hc; simp [h c hc]
    rw [show (arg :: args).headD (bs "help") = arg from rfl, this]
  · intro c hc h1 h2
    rw [serve, serveSubs_eq, show (arg :: args).headD (bs "help") = arg from rfl, hc]
    simp [h1, h2]

/-- C205: a command whose sub commands have one named `help` panics when called without arguments,
whatever that command does. -/
theorem C205_help_violated (n a : Bytes) (l : List Bytes) (before after : List Cmd) (c : Cmd)
    (hb : ∀ x ∈ before, x.answersTo (bs "help") = false) (hc : c.name = bs "help") :
    serve (.group n a l (before ++ c :: after)) [] = .panics := by
  rw [serve, serveSubs_eq, show ([] : List Bytes).headD (bs "help") = bs "help" from rfl]
  have : subCommand (before ++ c :: after) (bs "help") = some c := by
    rw [subCommand, List.find?_eq_some_iff_append]
    exact ⟨by simp [answersTo, hc], before, after, rfl, fun x hx => by simp [hb x hx]⟩
  rw [this]
  simp [hc]

example : serve (.group (bs "go") [] [] [.group (bs "mod") (bs "m") [] [.handler (bs "tidy") [] [bs "clean"] 7]])
    [bs "m", bs "tidy", bs "-v"] = .handled 7 [bs "-v"] := by decide +kernel

end Cmd

/-- C83: the path of a command is its names from the root, separated by spaces (the command itself is
included). -/
theorem C83_path (names : List Bytes) (h : names ≠ []) :
    commandPath names = List.intercalate [ch ' '] names.reverse := by
  have hf : ∀ (l : List Bytes) (acc : Bytes),
      l.foldl (fun full n => n ++ ch ' ' :: full) acc
        = (l.reverse.map (· ++ [ch ' '])).flatten ++ acc := by
    intro l
    induction l with
    | nil => simp
    | cons x l ih => intro acc; rw [List.foldl_cons, ih]; simp
  have hg : ∀ l : List Bytes, l ≠ [] →
      (l.map (· ++ [ch ' '])).flatten = List.intercalate [ch ' '] l ++ [ch ' '] := by
    intro l
    induction l with
    | nil => simp
    | cons x l ih =>
      intro _
      cases l with
      | nil => simp [List.intercalate]
      | cons y l =>
        rw [List.map_cons, List.flatten_cons, ih (by simp)]
        simp [List.intercalate]
  rw [commandPath, hf, List.append_nil, hg _ (by simpa using h), List.dropLast_concat]

example : commandPath [bs "tidy", bs "mod", bs "go"] = bs "go mod tidy" := by decide

end Memar.Command
