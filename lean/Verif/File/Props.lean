import Verif.File.Model

/-!
# C45, C84, C85: file contents, file names and relative paths
-/

namespace Memar.File
open Memar Memar.Decimal

/-! ## C45 -/

/-- Specification: the regions lie in a content of length `len`, ascend from `pos` and do not overlap. -/
def Ascending (len : Nat) : Nat → List ReplaceReq → Prop
  | _, [] => True
  | pos, r :: rs => (pos : Int) ≤ r.start ∧ r.start ≤ r.stop ∧ r.stop ≤ len ∧ Ascending len r.stop.toNat rs

/-- Specification: the content from `pos` on with each region replaced by its data. -/
def spliced (content : Bytes) : Nat → List ReplaceReq → Bytes
  | pos, [] => content.drop pos
  | pos, r :: rs =>
    (content.drop pos).take (r.start.toNat - pos) ++ r.data ++ spliced content r.stop.toNat rs

theorem fromI_nat (s : Bytes) (n : Nat) (h : n ≤ s.length) : fromI s n = some (s.drop n) := by
  rw [fromI, if_pos ⟨by omega, by omega⟩]; simp

theorem copyAt_nat (s : Bytes) (n : Nat) (d : Bytes) (h : n ≤ s.length) :
    copyAt s n d = some (s.take n ++ goCopy (s.drop n) d) := by
  rw [copyAt, fromI_nat s n h]; simp

theorem replaceOne_eq (ext : Nat → Byte) (A B C data : Bytes) :
    replaceOne ext (A ++ B ++ C) data A.length (A.length + B.length : Nat)
      ((data.length : Int) - B.length) = some (A ++ data ++ C) := by
  unfold replaceOne
  have hst : ((A.length + B.length : Nat) : Int) + ((data.length : Int) - B.length)
      = ((A.length + data.length : Nat) : Int) := by omega
  by_cases hpos : (data.length : Int) - B.length > 0
  · simp only [hpos, if_true]
    have hx : ((data.length : Int) - B.length).toNat = data.length - B.length := by omega
    rw [hx]
    generalize hX : (List.range (data.length - B.length)).map ext = X
    have hXl : X.length = data.length - B.length := by rw [← hX]; simp
    rw [fromI_nat _ _ (by simp), Option.bind_some, hst, copyAt_nat _ _ _ (by simp; omega),
      Option.bind_some]
    have hd1 : (A ++ B ++ C ++ X).drop (A.length + B.length) = C ++ X := by
      rw [List.append_assoc, List.drop_left' (by simp)]
    rw [hd1]
    have hg : goCopy ((A ++ B ++ C ++ X).drop (A.length + data.length)) (C ++ X) = C := by
      rw [goCopy]
      have : ((A ++ B ++ C ++ X).drop (A.length + data.length)).length = C.length := by simp; omega
      rw [this, List.take_left' rfl, List.drop_of_length_le (by rw [this]; simp), List.append_nil]
    rw [hg]
    generalize hT : (A ++ B ++ C ++ X).take (A.length + data.length) = T
    have hTl : T.length = A.length + data.length := by rw [← hT]; simp; omega
    have hTA : T.take A.length = A := by
      rw [← hT, List.take_take, Nat.min_eq_left (by omega), List.append_assoc, List.append_assoc,
        List.take_left' rfl]
    rw [copyAt_nat _ _ _ (by simp; omega), Option.bind_some, if_neg (by omega)]
    congr 1
    rw [List.take_append_of_le_length (by omega), hTA, List.drop_append_of_le_length (by omega), goCopy]
    rw [List.take_of_length_le (by simp; omega), List.drop_append, List.drop_of_length_le (by simp; omega)]
    simp [hTl]
  · simp only [hpos, if_false]
    rw [fromI_nat _ _ (by simp), Option.bind_some, hst, copyAt_nat _ _ _ (by simp; omega),
      Option.bind_some]
    have hd1 : (A ++ B ++ C).drop (A.length + B.length) = C := by
      rw [List.drop_left' (by simp)]
    rw [hd1]
    have hg : ∃ J, goCopy ((A ++ B ++ C).drop (A.length + data.length)) C = C ++ J ∧
        J.length = B.length - data.length := by
      refine ⟨((A ++ B ++ C).drop (A.length + data.length)).drop C.length, ?_, ?_⟩
      · rw [goCopy, List.take_of_length_le (by simp; omega)]
      · simp; omega
    obtain ⟨J, hg, hJ⟩ := hg
    rw [hg]
    generalize hT : (A ++ B ++ C).take (A.length + data.length) = T
    have hTl : T.length = A.length + data.length := by rw [← hT]; simp; omega
    have hTA : T.take A.length = A := by
      rw [← hT, List.take_take, Nat.min_eq_left (by omega), List.append_assoc, List.take_left' rfl]
    rw [copyAt_nat _ _ _ (by simp; omega), Option.bind_some]
    have hs3 : (T ++ (C ++ J)).take A.length ++ goCopy ((T ++ (C ++ J)).drop A.length) data
        = A ++ data ++ C ++ J := by
      rw [List.take_append_of_le_length (by omega), hTA, List.drop_append_of_le_length (by omega), goCopy]
      rw [List.take_of_length_le (by simp; omega), List.drop_append, List.drop_of_length_le (by simp; omega)]
      simp [hTl]
    rw [hs3]
    by_cases hneg : (data.length : Int) - B.length < 0
    · rw [if_pos hneg, if_pos (by simp; omega)]
      congr 1
      have hn : (((A ++ data ++ C ++ J).length : Int) + ((data.length : Int) - B.length)).toNat
          = (A ++ data ++ C).length := by simp; omega
      rw [hn, List.take_left' rfl]
    · rw [if_neg hneg]
      have : J = [] := List.length_eq_zero_iff.1 (by omega)
      simp [this]

theorem replaceLoop_eq (ext : Nat → Nat → Byte) (content : Bytes) (reqs : List ReplaceReq) (out : Bytes)
    (pos : Nat) (hp : pos ≤ content.length) (h : Ascending content.length pos reqs) :
    replaceLoop ext (out ++ content.drop pos) ((out.length : Int) - pos) reqs
      = some (out ++ spliced content pos reqs) := by
  induction reqs generalizing out pos with
  | nil => rfl
  | cons r rs ih =>
    obtain ⟨h1, h2, h3, h4⟩ := h
    obtain ⟨data, start, stop⟩ := r
    simp only at h1 h2 h3 h4
    obtain ⟨st, rfl⟩ : ∃ n : Nat, start = n := ⟨start.toNat, by omega⟩
    obtain ⟨en, rfl⟩ : ∃ n : Nat, stop = n := ⟨stop.toNat, by omega⟩
    have hen : (en : Int).toNat = en := by omega
    rw [hen] at h4
    rw [replaceLoop]
    simp only
    -- the three parts of the content
    have hA : out ++ content.drop pos
        = (out ++ (content.drop pos).take (st - pos)) ++ (content.drop st).take (en - st) ++ content.drop en := by
      have e1 : content.drop pos = (content.drop pos).take (st - pos) ++ content.drop st := by
        have := (List.take_append_drop (st - pos) (content.drop pos)).symm
        rw [List.drop_drop, show pos + (st - pos) = st by omega] at this
        exact this
      have e2 : content.drop st = (content.drop st).take (en - st) ++ content.drop en := by
        have := (List.take_append_drop (en - st) (content.drop st)).symm
        rw [List.drop_drop, show st + (en - st) = en by omega] at this
        exact this
      rw [List.append_assoc, ← e2, List.append_assoc, ← e1]
    have hlA : ((out ++ (content.drop pos).take (st - pos)).length : Int) = st + (out.length - pos) := by
      simp; omega
    have hlB : (((content.drop st).take (en - st)).length : Int) = en - st := by simp; omega
    have key := replaceOne_eq (ext rs.length) (out ++ (content.drop pos).take (st - pos))
      ((content.drop st).take (en - st)) (content.drop en) data
    rw [← hA] at key
    rw [show ((st : Int) + ((out.length : Int) - pos)) = ((out ++ (content.drop pos).take (st - pos)).length : Int) from hlA.symm]
    rw [show ((en : Int) + ((out.length : Int) - pos))
      = (((out ++ (content.drop pos).take (st - pos)).length + ((content.drop st).take (en - st)).length : Nat) : Int) by omega]
    rw [show ((data.length : Int) - ((((out ++ (content.drop pos).take (st - pos)).length
        + ((content.drop st).take (en - st)).length : Nat) : Int)
        - ((out ++ (content.drop pos).take (st - pos)).length : Int)))
      = (data.length : Int) - (((content.drop st).take (en - st)).length : Int) by omega]
    rw [key, Option.bind_some]
    have ih' := ih (out ++ (content.drop pos).take (st - pos) ++ data) en (by omega) h4
    rw [show ((out.length : Int) - pos + ((data.length : Int) - (((content.drop st).take (en - st)).length : Int)))
      = (((out ++ (content.drop pos).take (st - pos) ++ data).length : Nat) : Int) - en by
        rw [List.length_append]; omega]
    rw [ih', spliced]
    simp [hen]

/-- C45: for every list of ascending regions that do not overlap, whatever their data and whatever the
memory behind the content holds, the content afterwards is the original with each region replaced by
its data and everything else kept. -/
theorem C45_replaced (ext : Nat → Nat → Byte) (content : Bytes) (reqs : List ReplaceReq)
    (h : Ascending content.length 0 reqs) :
    replaceLocation ext content reqs = some (spliced content 0 reqs) := by
  have := replaceLoop_eq ext content reqs [] 0 (Nat.zero_le _) h
  simpa [replaceLocation] using this

example := C45_replaced (fun _ _ => 255) (bs "hello brave world") [⟨bs "J", 0, 1⟩, ⟨bs "", 5, 11⟩, ⟨bs "everyone", 12, 17⟩]
  ⟨by decide, by decide, by decide, by decide, by decide, by decide, by decide, by decide, by decide, trivial⟩

/-- C45: a region that ends behind the content panics. -/
theorem C45_outside (ext : Nat → Nat → Byte) (content data : Bytes) (start stop : Int)
    (rest : List ReplaceReq) (h : (content.length : Int) < stop) :
    replaceLocation ext content (⟨data, start, stop⟩ :: rest) = none := by
  rw [replaceLocation, replaceLoop]
  simp only [Int.add_zero]
  generalize hadd : (data.length : Int) - (stop - start) = added
  unfold replaceOne
  by_cases hpos : added > 0
  · simp only [hpos, if_true]
    cases hf : fromI (content ++ (List.range added.toNat).map (ext rest.length)) stop with
    | none => rfl
    | some tail =>
      rw [Option.bind_some, copyAt, fromI, if_neg]
      · rfl
      · simp; omega
  · simp only [hpos, if_false]
    rw [fromI, if_neg (by omega)]
    rfl

example := C45_outside (fun _ _ => 255) (bs "hello") (bs "x") 3 6 [] (by decide)

/-- C45: no regions, no change. -/
theorem C45_nothing (ext : Nat → Nat → Byte) (content : Bytes) :
    replaceLocation ext content [] = some content := rfl

example : replaceLocation (fun _ _ => 255) (bs "hello brave world")
    [⟨bs "J", 0, 1⟩, ⟨bs "", 5, 11⟩, ⟨bs "everyone", 12, 17⟩] = some (bs "Jello everyone") := by
  decide +kernel
example : Ascending (bs "hello brave world").length 0
    [⟨bs "J", 0, 1⟩, ⟨bs "", 5, 11⟩, ⟨bs "everyone", 12, 17⟩] := by
  refine ⟨by decide, by decide, by decide, by decide, by decide, by decide, by decide, by decide, by decide, trivial⟩

/-! ## C84: file names -/

theorem lastIndex_split (s : Bytes) (c : Byte) :
    (lastIndexByte s c = none ∧ c ∉ s) ∨
    ∃ a b, s = a ++ c :: b ∧ c ∉ b ∧ lastIndexByte s c = some a.length := by
  by_cases h : c ∈ s
  · right
    have : ∃ a b, s = a ++ c :: b ∧ c ∉ b := by
      induction s with
      | nil => simp at h
      | cons x t ih =>
        by_cases ht : c ∈ t
        · obtain ⟨a, b, e, hb⟩ := ih ht
          exact ⟨x :: a, b, by simp [e], hb⟩
        · have : x = c := by
            rcases List.mem_cons.1 h with h | h
            · exact h.symm
            · exact absurd h ht
          exact ⟨[], t, by simp [this], ht⟩
    obtain ⟨a, b, e, hb⟩ := this
    exact ⟨a, b, e, hb, by rw [e, lastIndexByte_append a b c hb]⟩
  · exact .inl ⟨(lastIndexByte_none_iff s c).2 h, h⟩

/-- C84: initialised from a path, directory and name give the path back, the name has no slash, and the
directory is empty or ends with a slash. -/
theorem C84_split (u : URI) (s : Bytes) :
    (u.init s).path ++ (u.init s).name = s ∧ ch '/' ∉ (u.init s).name ∧
    ((u.init s).path = [] ∨ ∃ d, (u.init s).path = d ++ [ch '/']) := by
  rcases lastIndex_split s (ch '/') with ⟨h, hn⟩ | ⟨a, b, e, hb, h⟩
  · simp [URI.init, URI.rename, filepathSplit, h, hn]
  · simp only [URI.init, URI.rename, filepathSplit, h]
    refine ⟨by simp, ?_, .inr ⟨a, ?_⟩⟩
    · rw [e, drop_append_len]; exact hb
    · rw [e, show a ++ ch '/' :: b = (a ++ [ch '/']) ++ b by simp, List.take_left' (by simp)]

/-- C84: the extension is what follows the last dot of the name, and empty without a dot. -/
theorem C84_extension (n : Bytes) :
    (ch '.' ∉ n → extension n = []) ∧
    (∀ a b, n = a ++ ch '.' :: b → ch '.' ∉ b → extension n = b) := by
  constructor
  · intro h; rw [extension, (lastIndexByte_none_iff n _).2 h]
  · intro a b e hb
    rw [e, extension, lastIndexByte_append a b _ hb]
    exact drop_append_len a b _

theorem ext_cases (n : Bytes) :
    (extension n = [] ∧ ch '.' ∉ n) ∨ ∃ a, n = a ++ ch '.' :: extension n ∧ ch '.' ∉ extension n := by
  by_cases h : ch '.' ∈ n
  · rcases lastIndex_split n (ch '.') with ⟨_, hn⟩ | ⟨a, b, e, hb, _⟩
    · exact absurd h hn
    · have := (C84_extension n).2 a b e hb
      exact .inr ⟨a, by rw [this]; exact e, by rw [this]; exact hb⟩
  · exact .inl ⟨(C84_extension n).1 h, h⟩

/-- C206: after initialisation or renaming, the name is the name without extension followed by the
extension.  Missing: the dot stays in the first part, refuted below. -/
theorem C206_name_partial (u : URI) (n : Bytes) :
    ∃ b, (u.rename n).nameWithoutExtension = some b ∧ b ++ (u.rename n).ext = n := by
  have hle : (extension n).length ≤ n.length := by
    rcases ext_cases n with ⟨h, _⟩ | ⟨a, h, _⟩
    · simp [h]
    · have := congrArg List.length h
      simp at this; omega
  refine ⟨_, by rw [URI.nameWithoutExtension]; exact if_pos hle, ?_⟩
  show n.take (n.length - (extension n).length) ++ extension n = n
  rcases ext_cases n with ⟨h, _⟩ | ⟨a, h, _⟩
  · simp [h]
  · have hl := congrArg List.length h
    rw [List.length_append, List.length_cons] at hl
    have ht : n.take (n.length - (extension n).length) = a ++ [ch '.'] := by
      generalize extension n = e at h hl ⊢
      rw [show a ++ ch '.' :: e = (a ++ [ch '.']) ++ e by simp] at h
      rw [h, List.take_left' (by simp; omega)]
    rw [ht]
    simpa using h.symm

/-- C206: for every name with a dot, the name without extension still ends with the dot. -/
theorem C206_dot_violated (u : URI) (a e : Bytes) (he : ch '.' ∉ e) :
    (u.rename (a ++ ch '.' :: e)).nameWithoutExtension = some (a ++ [ch '.']) := by
  have h := (C84_extension (a ++ ch '.' :: e)).2 a e rfl he
  rw [URI.nameWithoutExtension]
  simp only [URI.rename, h]
  rw [if_pos (by simp; omega)]
  congr 1
  rw [show a ++ ch '.' :: e = (a ++ [ch '.']) ++ e by simp, List.take_left' (by simp; omega)]

example := C206_dot_violated ⟨[], [], []⟩ (bs "a.tar") (bs "gz") (by decide)

/-- C206: after `Unmarshal` the extension is still the old one, and asking for the name without it panics
whenever the new name is shorter. -/
theorem C206_unmarshal_violated (u : URI) (s : Bytes) :
    (u.unmarshal s).ext = u.ext ∧
    ((u.unmarshal s).name.length < u.ext.length → (u.unmarshal s).nameWithoutExtension = none) := by
  refine ⟨rfl, fun h => ?_⟩
  rw [URI.nameWithoutExtension]
  exact if_neg (Nat.not_le.2 h)

/-- C206: every file in a directory is reported to be a directory, and asking panics for every other. -/
theorem C206_is_directory_violated (u : URI) (s : Bytes) :
    (ch '/' ∈ s → (u.init s).isDirectory = some true) ∧
    (ch '/' ∉ s → (u.init s).isDirectory = none) := by
  constructor
  · intro h
    obtain ⟨h1, h2, h3⟩ := C84_split u s
    rcases h3 with h3 | ⟨d, h3⟩
    · rw [h3, List.nil_append] at h1
      rw [h1] at h2; exact absurd h h2
    · simp [URI.isDirectory, isPathDirectory, h3]
  · intro h
    simp [URI.isDirectory, isPathDirectory, URI.init, URI.rename, filepathSplit, (lastIndexByte_none_iff s _).2 h]

/-- C84: renaming a file by its hash keeps the directory and the extension. -/
theorem C84_hash_keeps_extension (crc : Bytes → U32) (u : URI) (s content n : Bytes)
    (h : hashedName crc (u.init s) content = some n) :
    ((u.init s).rename n).ext = (u.init s).ext ∧ ((u.init s).rename n).path = (u.init s).path := by
  refine ⟨?_, rfl⟩
  obtain ⟨b, hb, rfl⟩ := Option.map_eq_some_iff.1 h
  show extension _ = (u.init s).ext
  have hext : ch '.' ∉ (u.init s).ext := by
    show ch '.' ∉ extension _
    rcases ext_cases (filepathSplit s).2 with ⟨h, _⟩ | ⟨a, _, h⟩
    · simp [h]
    · exact h
  exact (C84_extension _).2 (b ++ ch '-' :: decDigits (crc content).toNat) (u.init s).ext (by simp) hext

example := C84_hash_keeps_extension (fun _ => 7#32) ⟨[], [], []⟩ (bs "/d/a.js") (bs "x") _ rfl

/-- C84: of two contents of a file the hashed names are equal exactly if the checksums are. -/
theorem C84_hash_differs (crc : Bytes → U32) (u : URI) (s c c' : Bytes) :
    hashedName crc (u.init s) c = hashedName crc (u.init s) c' ↔ crc c = crc c' := by
  obtain ⟨b, hb, _⟩ := C206_name_partial { u with path := (filepathSplit s).1 } (filepathSplit s).2
  have hb : (u.init s).nameWithoutExtension = some b := hb
  simp only [hashedName, hb, Option.map_some, Option.some.injEq]
  constructor
  · intro h
    have h := List.append_cancel_right h
    have h := List.append_cancel_left h
    injection h with _ h
    exact BitVec.eq_of_toNat_eq (decDigits_inj _ _ h)
  · intro h; rw [h]

theorem partsLoop_slash (b : Bytes) (t : Bytes) : partsLoop b (ch '/' :: t) = b :: match t with
    | [] => [[]]
    | d :: t => partsLoop [d] t := by
  rw [partsLoop.eq_def]
  cases t <;> simp

theorem partsLoop_other (b : Bytes) (c : Byte) (t : Bytes) (h : c ≠ ch '/') :
    partsLoop b (c :: t) = partsLoop (b ++ [c]) t := by
  rw [partsLoop.eq_def]
  simp [h]

theorem partsLoop_join (b t : Bytes) : List.intercalate [ch '/'] (partsLoop b t) = b ++ t := by
  suffices H : ∀ n (b t : Bytes), t.length ≤ n → List.intercalate [ch '/'] (partsLoop b t) = b ++ t from
    H _ b t (Nat.le_refl _)
  intro n
  induction n with
  | zero =>
    intro b t h
    have : t = [] := List.length_eq_zero_iff.1 (by omega)
    subst this
    simp [partsLoop, List.intercalate]
  | succ n ih =>
    intro b t h
    match t with
    | [] => simp [partsLoop, List.intercalate]
    | [c] =>
      by_cases hc : c = ch '/'
      · subst hc; simp [partsLoop, List.intercalate]
      · simp [partsLoop, hc, List.intercalate]
    | c :: d :: t =>
      by_cases hc : c = ch '/'
      · subst hc
        have hih := ih [d] t (by simp at h; omega)
        rw [partsLoop_slash]
        have hne : ∃ x xs, partsLoop [d] t = x :: xs := by
          cases t with
          | nil => exact ⟨_, _, rfl⟩
          | cons y t =>
            by_cases hy : y = ch '/'
            · subst hy; rw [partsLoop_slash]; exact ⟨_, _, rfl⟩
            · rw [partsLoop_other _ _ _ hy]
              cases hp : partsLoop ([d] ++ [y]) t with
              | nil =>
                have := ih ([d] ++ [y]) t (by simp at h; omega)
                rw [hp] at this; simp [List.intercalate] at this
              | cons x xs => exact ⟨x, xs, rfl⟩
        obtain ⟨x, xs, hx⟩ := hne
        simp only [hx]
        rw [hx] at hih
        simp only [List.intercalate, List.intersperse_cons_cons, List.flatten_cons] at hih ⊢
        rw [hih]; simp
      · have hih := ih (b ++ [c]) (d :: t) (by simp at h ⊢; omega)
        rw [partsLoop_other _ _ _ hc, hih]; simp

/-- C84: the parts of a path joined with slashes are the path. -/
theorem C84_parts_join (p : Bytes) : List.intercalate [ch '/'] (filePathParts p) = p := by
  rw [filePathParts, partsLoop_join]; simp

/-- Specification: two slashes follow each other. -/
def DoubleSlash (p : Bytes) : Prop := ∃ a b, p = a ++ ch '/' :: ch '/' :: b

theorem partsLoop_noslash (n : Nat) : ∀ (b t : Bytes), t.length ≤ n → ch '/' ∉ b →
    ¬ DoubleSlash t → ∀ x ∈ partsLoop b t, ch '/' ∉ x := by
  induction n with
  | zero =>
    intro b t h hb _ x hx
    have : t = [] := List.length_eq_zero_iff.1 (by omega)
    subst this
    simp only [partsLoop, List.mem_singleton] at hx; subst hx; exact hb
  | succ n ih =>
    intro b t h hb hd x hx
    match t with
    | [] => simp only [partsLoop, List.mem_singleton] at hx; subst hx; exact hb
    | c :: t =>
      have hdt : ¬ DoubleSlash t := fun ⟨a, b, e⟩ => hd ⟨c :: a, b, by simp [e]⟩
      by_cases hc : c = ch '/'
      · subst hc
        rw [partsLoop_slash, List.mem_cons] at hx
        rcases hx with rfl | hx
        · exact hb
        · match t with
          | [] => simp only [List.mem_singleton] at hx; subst hx; simp
          | d :: t =>
            have hd1 : d ≠ ch '/' := fun e => hd ⟨[], t, by simp [e]⟩
            exact ih [d] t (by simp at h; omega) (by simpa using Ne.symm hd1)
              (fun ⟨a, b, e⟩ => hdt ⟨d :: a, b, by simp [e]⟩) x hx
      · rw [partsLoop_other _ _ _ hc] at hx
        exact ih (b ++ [c]) t (by simp at h; omega) (by simp [hb, Ne.symm hc]) hdt x hx

/-- C206, that no part has a slash, proved if no two slashes follow each other.
Missing: the dot, the kind of file, double slashes, and reading another path (refuted:
`C206_codec_violated`, `C206_dot_violated`, `C206_unmarshal_violated` and others). -/
theorem C206_parts_partial (p : Bytes) (h : ¬ DoubleSlash p) : ∀ x ∈ filePathParts p, ch '/' ∉ x :=
  partsLoop_noslash _ [] p (Nat.le_refl _) (by simp) h

example := C206_parts_partial (bs "a/b") (by
  rintro ⟨a, b, h⟩
  rw [show bs "a/b" = [ch 'a', ch '/', ch 'b'] by decide] at h
  rcases a with _ | ⟨x, _ | ⟨y, _ | ⟨z, _ | _⟩⟩⟩ <;>
    simp_all [show ch 'a' ≠ ch '/' by decide, show ch 'b' ≠ ch '/' by decide])

/-- C206: behind a double slash a part begins with a slash. -/
theorem C206_parts_violated (a b : Bytes) (ha : ch '/' ∉ a) :
    ∃ x ∈ filePathParts (a ++ ch '/' :: ch '/' :: b), x.head? = some (ch '/') := by
  have h1 : ∀ (pre t : Bytes), ch '/' ∉ t → ∀ u,
      partsLoop pre (t ++ ch '/' :: ch '/' :: u) = (pre ++ t) :: partsLoop [ch '/'] u := by
    intro pre t
    induction t generalizing pre with
    | nil => intro _ u; rw [List.nil_append, partsLoop_slash]; simp
    | cons c t ih =>
      intro h u
      rw [List.cons_append, partsLoop_other _ _ _ (fun e => h (by simp [e])), ih _ (fun e => h (by simp [e]))]
      simp
  have h2 : ∀ (pre u : Bytes), pre.head? = some (ch '/') →
      ∃ x ∈ partsLoop pre u, x.head? = some (ch '/') := by
    intro pre u
    induction u generalizing pre with
    | nil => intro h; exact ⟨pre, by simp [partsLoop], h⟩
    | cons c u ih =>
      intro h
      by_cases hc : c = ch '/'
      · exact ⟨pre, by rw [hc, partsLoop_slash]; simp, h⟩
      · rw [partsLoop_other _ _ _ hc]
        refine ih (pre ++ [c]) ?_
        cases pre with
        | nil => simp at h
        | cons y ys => simpa using h
  rw [filePathParts, h1 [] a ha]
  obtain ⟨x, hx, hh⟩ := h2 [ch '/'] b rfl
  exact ⟨x, List.mem_cons_of_mem _ hx, hh⟩

example : filePathParts (bs "a/b/c") = [bs "a", bs "b", bs "c"] ∧
    filePathParts (bs "a//b") = [bs "a", bs "/b"] := by decide

/-! ## C85: relative paths -/

theorem splitLoop_append (c : Byte) (b x : Bytes) (hx : c ∉ x) (t : Bytes) :
    splitLoop c b (x ++ t) = splitLoop c (b ++ x) t := by
  induction x generalizing b with
  | nil => simp
  | cons y x ih =>
    rw [List.cons_append, splitLoop, if_neg (fun e => hx (by simp [e])), ih _ (fun e => hx (by simp [e]))]
    simp

theorem split_join (c : Byte) (parts : List Bytes) (hne : parts ≠ []) (h : ∀ x ∈ parts, c ∉ x) :
    split (List.intercalate [c] parts) c = parts := by
  suffices H : ∀ b, splitLoop c b (List.intercalate [c] parts) = (b ++ parts.headD []) :: parts.tail by
    rw [split, H]; cases parts with
    | nil => exact absurd rfl hne
    | cons x xs => rfl
  induction parts with
  | nil => exact absurd rfl hne
  | cons x xs ih =>
    intro b
    cases xs with
    | nil =>
      have hj : List.intercalate [c] [x] = x := by simp [List.intercalate]
      have := splitLoop_append c b x (h x (by simp)) []
      rw [List.append_nil] at this
      rw [hj, this]; rfl
    | cons y ys =>
      have hj : List.intercalate [c] (x :: y :: ys) = x ++ (c :: List.intercalate [c] (y :: ys)) := by
        simp [List.intercalate]
      rw [hj, splitLoop_append c b x (h x (by simp)), splitLoop, if_pos rfl,
        ih (by simp) (fun z hz => h z (List.mem_cons_of_mem _ hz))]
      simp

/-- Specification: a file tree: directories and files are given by their paths from the root, as lists
of names. -/
structure Tree where
  isDir : List Bytes → Bool
  isFile : List Bytes → Bool

/-- The methods on such a tree. -/
def Tree.fs (t : Tree) : FileSystem (List Bytes) (List Bytes) where
  parent := fun d => if d = [] then none else some d.dropLast
  directory := fun d n => if t.isDir (d ++ [n]) then some (d ++ [n]) else none
  file := fun d n => if t.isFile (d ++ [n]) then some (d ++ [n]) else none

/-- The path of `j` times `.`, `k` times `..`, the names `down` and the file name. -/
def relative (j k : Nat) (down : List Bytes) (name : Bytes) : List Bytes :=
  List.replicate j (bs ".") ++ List.replicate k (bs "..") ++ down ++ [name]

theorem walk_dots (t : Tree) (d : List Bytes) (j : Nat) (rest : List Bytes) (hr : rest ≠ []) :
    walk t.fs (some d) (List.replicate j (bs ".") ++ rest) = walk t.fs (some d) rest := by
  induction j with
  | zero => rfl
  | succ j ih =>
    rw [List.replicate_succ, List.cons_append]
    obtain ⟨x, xs, hx⟩ : ∃ x xs, List.replicate j (bs ".") ++ rest = x :: xs := by
      cases h : List.replicate j (bs ".") ++ rest with
      | nil => simp at h; exact absurd h.2 hr
      | cons x xs => exact ⟨x, xs, rfl⟩
    rw [hx] at ih ⊢
    rw [walk, if_pos rfl, ih]

theorem walk_up (t : Tree) (c up : List Bytes) (rest : List Bytes) (hr : rest ≠ []) :
    walk t.fs (some (c ++ up)) (List.replicate up.length (bs "..") ++ rest) = walk t.fs (some c) rest := by
  suffices H : ∀ n (up : List Bytes), up.length = n →
      walk t.fs (some (c ++ up)) (List.replicate n (bs "..") ++ rest) = walk t.fs (some c) rest from
    H _ up rfl
  intro n
  induction n with
  | zero =>
    intro up hu
    have : up = [] := List.length_eq_zero_iff.1 hu
    subst this; simp
  | succ n ih =>
    intro up hu
    rw [List.replicate_succ, List.cons_append]
    obtain ⟨x, xs, hx⟩ : ∃ x xs, List.replicate n (bs "..") ++ rest = x :: xs := by
      cases h : List.replicate n (bs "..") ++ rest with
      | nil => simp at h; exact absurd h.2 hr
      | cons x xs => exact ⟨x, xs, rfl⟩
    have hne : up ≠ [] := by intro e; subst e; simp at hu
    have ih' := ih up.dropLast (by simp [hu])
    rw [hx] at ih' ⊢
    rw [walk, if_neg (by decide), if_pos rfl, Option.bind_some]
    have hp : t.fs.parent (c ++ up) = some (c ++ up.dropLast) := by
      simp only [Tree.fs]
      rw [if_neg (by simp [hne]), List.dropLast_append_of_ne_nil hne]
    rw [hp]; exact ih'

theorem walk_down (t : Tree) (c down : List Bytes) (name : Bytes)
    (hn : ∀ x ∈ down, x ≠ bs "." ∧ x ≠ bs "..")
    (hd : ∀ k, k < down.length → t.isDir (c ++ down.take (k + 1)) = true) :
    walk t.fs (some c) (down ++ [name])
      = some (if t.isFile (c ++ down ++ [name]) then some (c ++ down ++ [name]) else none) := by
  induction down generalizing c with
  | nil => simp [walk, Tree.fs]
  | cons x xs ih =>
    obtain ⟨y, ys, hy⟩ : ∃ y ys, xs ++ [name] = y :: ys := by
      cases xs with
      | nil => exact ⟨_, _, rfl⟩
      | cons y ys => exact ⟨_, _, rfl⟩
    have hx := hn x (by simp)
    have hdx : t.isDir (c ++ [x]) = true := by simpa using hd 0 (by simp)
    have ih' := ih (c ++ [x]) (fun z hz => hn z (List.mem_cons_of_mem _ hz)) (fun k hk => by
      have := hd (k + 1) (by simp; omega)
      simpa using this)
    rw [List.cons_append, hy, walk, if_neg hx.1, if_neg hx.2, Option.bind_some]
    have hdir : t.fs.directory c x = some (c ++ [x]) := by simp [Tree.fs, hdx]
    rw [hdir]
    simp only
    rw [← hy, ih']
    simp

/-- C85: in every tree, from a file in the directory `c ++ up`, the path that goes up as often as `up`
is long, then down the existing directories `down`, finds the file `name` there, if it exists, and
nothing otherwise; dots in front change nothing. -/
theorem C85_finds (t : Tree) (c up down : List Bytes) (name : Bytes) (j : Nat)
    (hlen : 0 < j + up.length + down.length)
    (hn : ∀ x ∈ down, x ≠ bs "." ∧ x ≠ bs ".." ∧ ch '/' ∉ x) (hname : ch '/' ∉ name)
    (hd : ∀ k, k < down.length → t.isDir (c ++ down.take (k + 1)) = true) :
    findByRelativeFrom t.fs (some (c ++ up))
        (List.intercalate [ch '/'] (relative j up.length down name))
      = some (if t.isFile (c ++ down ++ [name]) then some (c ++ down ++ [name]) else none) := by
  have hs : split (List.intercalate [ch '/'] (relative j up.length down name)) (ch '/')
      = relative j up.length down name := by
    refine split_join _ _ (by simp [relative]) ?_
    intro x hx
    simp only [relative, List.mem_append, List.mem_replicate, List.mem_singleton] at hx
    rcases hx with ((⟨_, rfl⟩ | ⟨_, rfl⟩) | hx) | rfl
    · decide
    · decide
    · exact (hn x hx).2.2
    · exact hname
  rw [findByRelativeFrom, hs, if_neg (by simp [relative]; omega), relative, List.append_assoc,
    List.append_assoc, walk_dots _ _ _ _ (by simp), walk_up _ _ _ _ (by simp),
    walk_down t c down name (fun x hx => ⟨(hn x hx).1, (hn x hx).2.1⟩) hd]

example := C85_finds ⟨fun d => d == [bs "img"], fun f => f == [bs "img", bs "a.png"]⟩ [] [bs "css"] [bs "img"] (bs "a.png") 1
  (by decide) (by decide) (by decide) (by decide)

/-- C207: a bare file name is never found, even if the file is in the same directory. -/
theorem C207_bare_name_violated {δ φ} (fs : FileSystem δ φ) (dir : Option δ) (name : Bytes)
    (h : ch '/' ∉ name) : findByRelativeFrom fs dir name = some none := by
  have : split name (ch '/') = [name] := by
    have := split_join (ch '/') [name] (by simp) (by simpa using h)
    simpa [List.intercalate] using this
  rw [findByRelativeFrom, this]; rfl

example := C207_bare_name_violated (Tree.fs ⟨fun _ => false, fun f => f == [bs "a.png"]⟩) (some []) (bs "a.png") (by decide)

/-- C207: a path that goes up beyond the root panics. -/
theorem C207_above_root_violated (t : Tree) (d : List Bytes) (name : Bytes) (h : ch '/' ∉ name) :
    findByRelativeFrom t.fs (some d)
      (List.intercalate [ch '/'] (List.replicate (d.length + 1) (bs "..") ++ [name])) = none := by
  have hs : split (List.intercalate [ch '/'] (List.replicate (d.length + 1) (bs "..") ++ [name])) (ch '/')
      = List.replicate (d.length + 1) (bs "..") ++ [name] := by
    refine split_join _ _ (by simp) ?_
    intro x hx
    rcases List.mem_append.1 hx with hx | hx
    · rw [List.mem_replicate] at hx; rw [hx.2]; decide
    · simp only [List.mem_singleton] at hx; subst hx; exact h
  rw [findByRelativeFrom, hs, if_neg (by simp)]
  have : List.replicate (d.length + 1) (bs "..") ++ [name] = List.replicate d.length (bs "..") ++ [bs "..", name] := by
    rw [List.replicate_succ']; simp
  rw [this]
  have hu := walk_up t [] d [bs "..", name] (by simp)
  rw [List.nil_append] at hu
  rw [hu]
  simp [walk, Tree.fs, show bs ".." ≠ bs "." by decide]

example : findByRelativeFrom
    (Tree.fs ⟨fun d => d == [bs "img"], fun f => f == [bs "img", bs "a.png"]⟩) (some [bs "css"])
    (bs "../img/a.png") = some (some [bs "img", bs "a.png"]) := by decide +kernel

end Memar.File
