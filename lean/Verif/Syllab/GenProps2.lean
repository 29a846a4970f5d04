import Verif.Syllab.GenProps

/-!
# C124–C127: the generator, what goes wrong and which method gets which code
-/

namespace Memar.Syllab.Gen
open Memar Memar.Binary Spec

/-! ## Example -/

/-- A struct with one field of each supported shape. -/
def demo : List Field :=
  [⟨["A"], .ident "bool", none⟩, ⟨["B", "C"], .ident "uint16", none⟩, ⟨["S"], .ident "string", none⟩,
    ⟨["X"], .ident "int", some "-"⟩, ⟨["L"], .slice (.name "int16"), none⟩, ⟨["M"], .array (.num 3) (.name "byte"), none⟩]

/-- A value of it. -/
def demoEnv : Env where
  val p :=
    if p = "r.A" then .bool true
    else if p = "r.B" then .num 0x102
    else if p = "r.C" then .num 7
    else if p = "r.S" then .dyn (.str [0x61, 0x62])
    else if p = "r.L" then .dyn (.u16s [5, 6])
    else .arr [1, 2, 3]
  nestStack _ := 0
  nestHeap _ := 0
  nestEnc _ _ _ _ := none
  nestDec _ _ _ := none
  c32 := ⟨fun n => BitVec.ofNat 32 n, fun b => b.toNat⟩
  c64 := ⟨fun n => BitVec.ofNat 64 n, fun b => b.toNat⟩

/-- non-vacuity of C124: the hypotheses hold for it -/
example : (∀ f ∈ members demo, GSpec.stackBytes f.2 ≠ none) ∧
    (∀ f ∈ members demo, GSpec.Has f.2 (demoEnv.val ("r" ++ "." ++ f.1))) ∧
    GSpec.stack (members demo) + GSpec.heap demoEnv.val "r" (members demo) = 30 := by
  refine ⟨by decide, ?_, by decide⟩
  have hm : members demo = [("A", .ident "bool"), ("B", .ident "uint16"), ("C", .ident "uint16"), ("S", .ident "string"),
    ("L", .slice (.name "int16")), ("M", .array (.num 3) (.name "byte"))] := by decide
  rw [hm]
  intro f hf
  simp only [List.mem_cons, List.not_mem_nil, or_false] at hf
  rcases hf with rfl | rfl | rfl | rfl | rfl | rfl
  · exact .inl ⟨rfl, true, by decide⟩
  · exact .inr (.inr ⟨by decide, by decide, 0x102, 2, by decide, by decide, by decide⟩)
  · exact .inr (.inr ⟨by decide, by decide, 7, 2, by decide, by decide, by decide⟩)
  · exact .inr (.inl ⟨rfl, [0x61, 0x62], by decide⟩)
  · exact .inr (.inr (.inl ⟨by decide, [5, 6], by decide⟩))
  · exact ⟨[1, 2, 3], 1, by decide, by decide, by decide⟩

/-! ## Places of the fields -/

theorem encLines_get (is : List Item) : ∀ (o k : Nat) (i : Item), is[k]? = some i →
    (encLines o is)[k]? = some (.call ⟨i.path, i.ty, o + stackOf (is.take k), []⟩) := by
  induction is with
  | nil => intro o k i h; simp at h
  | cons j js ih =>
    intro o k i h
    cases k with
    | zero => simp at h; subst h; simp [encLines, stackOf]
    | succ k =>
      simp at h
      have := ih (o + j.n) k i h
      simp only [encLines, List.getElem?_cons_succ, this]
      simp [stackOf, Nat.add_assoc]

theorem decLines_get (nc : Bool) (is : List Item) : ∀ (o k : Nat) (i : Item), is[k]? = some i →
    (decLines nc o is)[k]? = some (.call ⟨i.path, i.ty, o + stackOf (is.take k), []⟩ nc) := by
  induction is with
  | nil => intro o k i h; simp at h
  | cons j js ih =>
    intro o k i h
    cases k with
    | zero => simp at h; subst h; simp [decLines, stackOf]
    | succ k =>
      simp at h
      have := ih (o + j.n) k i h
      simp only [decLines, List.getElem?_cons_succ, this]
      simp [stackOf, Nat.add_assoc]

/-- The supported fields, with the bytes of each. -/
theorem loop_prefix (mk : SM → MRes) (frn : String) (fs : List (String × FType)) (hs : ∀ f ∈ fs, GSpec.stackBytes f.2 ≠ none) :
    ∃ is : List Item, is.map Item.path = fs.map (fun f => frn ++ f.1) ∧ is.map Item.n = fs.map (fun f => (GSpec.stackBytes f.2).getD 0) ∧
      ∀ (sm : SM) (err : Option GErr), sm.frn = frn → sm.stackSize = [] →
        fieldsLoop mk fs sm err = .done { sm with
          enc := sm.enc ++ encLines sm.lsi is
          dec := sm.dec ++ decLines sm.noCopy sm.lsi is
          heap := sm.heap ++ heapLines is
          lsi := sm.lsi + stackOf is } err := by
  induction fs with
  | nil => exact ⟨[], rfl, rfl, fun sm err _ _ => by simp [fieldsLoop, encLines, decLines, heapLines, stackOf]⟩
  | cons f fs ih =>
    obtain ⟨is, a1, a2, a5⟩ := ih fun g hg => hs g (by simp [hg])
    obtain ⟨name, t⟩ := f
    obtain ⟨n, hn⟩ := Option.ne_none_iff_exists'.mp (hs (name, t) (by simp))
    obtain ⟨i, b1, b2, b3, b4, b5⟩ := item_of frn name t n hn
    have hn' : GSpec.stackBytes t = some n := hn
    refine ⟨i :: is, by simp [b2, a1], by simp [b3, a2, hn'], ?_⟩
    intro sm err hf hst
    rw [b5 mk fs sm err hf, a5 (sm.add i) err hf hst]
    simp [SM.add, encLines, decLines, heapLines, stackOf, hst, Nat.add_assoc]

/-- **C124**: the place of a field is the same in the generated encoder and decoder, and is the sum of the sizes of the fields before it:
the fields lie one behind the other, in the order of the struct, without gaps and without overlap. -/
theorem C124_layout (fuel : Nat) (noCopy : Bool) (types : List (String × TDecl)) (rn typ : String) (fs : List Field)
    (ht : types.lookup typ = some (.struct fs)) (hs : ∀ f ∈ members fs, GSpec.stackBytes f.2 ≠ none) (k : Nat) (f : String × FType)
    (hk : (members fs)[k]? = some f) :
    ∃ sm ty, make (fuel + 1) (fresh noCopy types rn typ) = .done sm none ∧
      sm.close.enc[k + 2]? = some (.call ⟨rn ++ "." ++ f.1, ty, GSpec.stack ((members fs).take k), []⟩) ∧
      sm.close.dec[k + 2]? = some (.call ⟨rn ++ "." ++ f.1, ty, GSpec.stack ((members fs).take k), []⟩ noCopy) ∧
      sm.close.enc.length = (members fs).length + 3 ∧ sm.close.dec.length = (members fs).length + 3 := by
  obtain ⟨is, a1, a2, a5⟩ := loop_prefix (make fuel) (rn ++ ".") (members fs) hs
  have hmake : make (fuel + 1) (fresh noCopy types rn typ) =
      fieldsLoop (make fuel) (members fs) (fresh noCopy types rn typ).header none := by
    rw [make, show (fresh noCopy types rn typ).types.lookup (fresh noCopy types rn typ).rtn = some (.struct fs) from ht]
  rw [a5 _ none rfl rfl] at hmake
  have hlen : is.length = (members fs).length := by simpa using congrArg List.length a1
  have hkl : k < is.length := by rw [hlen]; exact (List.getElem?_eq_some_iff.mp hk).1
  obtain ⟨i, hi⟩ : ∃ i, is[k]? = some i := ⟨is[k], List.getElem?_eq_getElem hkl⟩
  have hp : i.path = rn ++ "." ++ f.1 := by
    have := congrArg (fun l => l[k]?) a1
    simp only [List.getElem?_map, hi, hk, Option.map_some] at this
    exact Option.some.inj this
  have hst : stackOf (is.take k) = GSpec.stack ((members fs).take k) := by
    have e1 : stackOf (is.take k) = ((is.map Item.n).take k).sum := by rw [← List.map_take]; rfl
    rw [e1, a2, ← List.map_take]
    rfl
  have le : ∀ (is : List Item) (o : Nat), (encLines o is).length = is.length := by
    intro is
    induction is with
    | nil => intro o; rfl
    | cons j js ih => intro o; simp [encLines, ih]
  have ld : ∀ (is : List Item) (o : Nat), (decLines noCopy o is).length = is.length := by
    intro is
    induction is with
    | nil => intro o; rfl
    | cons j js ih => intro o; simp [decLines, ih]
  refine ⟨_, i.ty, hmake, ?_, ?_, ?_, ?_⟩
  · show (.bufComment :: .hsiInit :: (encLines 0 is ++ [.ret]))[k + 2]? = _
    rw [List.getElem?_cons_succ, List.getElem?_cons_succ, List.getElem?_append_left (by rw [le]; exact hkl), encLines_get is 0 k i hi, hp, hst, Nat.zero_add]
  · show (.declare ["add", "ln"] :: .lenCheck :: (decLines noCopy 0 is ++ [.ret]))[k + 2]? = _
    rw [List.getElem?_cons_succ, List.getElem?_cons_succ, List.getElem?_append_left (by rw [ld]; exact hkl), decLines_get noCopy is 0 k i hi, hp, hst, Nat.zero_add]
  · show ([ELine.bufComment, ELine.hsiInit] ++ encLines 0 is ++ [ELine.ret]).length = _
    simp [le, hlen]
  · show ([DLine.declare ["add", "ln"], DLine.lenCheck] ++ decLines noCopy 0 is ++ [DLine.ret]).length = _
    simp [ld, hlen]

/-- non-vacuity: the fifth field of the example stands behind 1 + 2 + 2 + 8 bytes -/
example : (members demo)[4]? = some ("L", .slice (.name "int16")) ∧ GSpec.stack ((members demo).take 4) = 13 := by decide

/-! ## What every run of the generator keeps -/

/-- The lines already written stay in front. -/
def Grows (sm sm' : SM) : Prop := sm.dec <+: sm'.dec ∧ sm.enc <+: sm'.enc ∧ sm.heap <+: sm'.heap ∧ sm'.types = sm.types ∧ sm'.rn = sm.rn

theorem Grows.refl (sm : SM) : Grows sm sm := ⟨List.prefix_refl _, List.prefix_refl _, List.prefix_refl _, rfl, rfl⟩
theorem Grows.trans {a b c : SM} (h : Grows a b) (k : Grows b c) : Grows a c :=
  ⟨h.1.trans k.1, h.2.1.trans k.2.1, h.2.2.1.trans k.2.2.1, k.2.2.2.1.trans h.2.2.2.1, k.2.2.2.2.trans h.2.2.2.2⟩

theorem grows_emit (sm : SM) (n : String) (t : GTy) : Grows sm (sm.emit n t) :=
  ⟨List.prefix_append _ _, List.prefix_append _ _, List.prefix_refl _, rfl, rfl⟩
theorem grows_heapLine (sm : SM) (h : HLine) : Grows sm (sm.heapLine h) :=
  ⟨List.prefix_refl _, List.prefix_refl _, List.prefix_append _ _, rfl, rfl⟩
theorem grows_advance (sm : SM) (n : Nat) : Grows sm (sm.advance n) := Grows.refl sm
theorem grows_header (sm : SM) : Grows sm sm.header := by
  unfold SM.header
  split
  · exact ⟨List.prefix_append _ _, List.prefix_append _ _, List.prefix_append _ _, rfl, rfl⟩
  · exact Grows.refl sm

theorem grows_slice (sm : SM) (n : String) (e : Elem) : Grows sm (sm.slice n e) := by
  unfold SM.slice
  refine Grows.trans ?_ (grows_advance _ _)
  split
  · exact Grows.refl sm
  · split
    · exact (grows_emit _ _ _).trans (grows_heapLine _ _)
    · exact grows_emit _ _ _
    · split
      · exact (grows_emit _ _ _).trans (grows_heapLine _ _)
      · exact Grows.refl sm

theorem grows_array (sm : SM) (n : String) (k : Nat) (e : Elem) : Grows sm (sm.array n k e) := by
  unfold SM.array
  split
  · exact Grows.refl sm
  · split
    · exact (grows_emit _ _ _).trans (grows_advance _ _)
    · split
      · exact ⟨List.prefix_refl _, List.prefix_append _ _, List.prefix_append _ _, rfl, rfl⟩
      · exact Grows.refl sm

theorem grows_ident (sm : SM) (n s : String) : Grows sm (sm.ident n s) := by
  unfold SM.ident
  split
  · exact Grows.refl sm
  · split
    · exact (grows_emit _ _ _).trans (grows_advance _ _)
    · split
      · exact ((grows_emit _ _ _).trans (grows_heapLine _ _)).trans (grows_advance _ _)
      · exact (grows_emit sm n .nested).trans (grows_heapLine _ _)

theorem grows_selector (sm : SM) (n : String) : Grows sm (sm.selector n) :=
  (grows_emit sm n .selector).trans (grows_heapLine _ _)

theorem grows_loop (mk : SM → MRes) (hmk : ∀ s s' e, mk s = .done s' e → Grows s s') (fs : List (String × FType)) :
    ∀ sm err sm' err', fieldsLoop mk fs sm err = .done sm' err' → Grows sm sm' := by
  induction fs with
  | nil => intro sm err sm' err' h; cases h; exact Grows.refl sm
  | cons f fs ih =>
    intro sm err sm' err' h
    obtain ⟨name, t⟩ := f
    cases t with
    | untyped => exact ih _ _ _ _ h
    | map => exact ih _ _ _ _ h
    | other => exact ih _ _ _ _ h
    | slice e => exact (grows_slice _ _ _).trans (ih _ _ _ _ h)
    | ident s => exact (grows_ident _ _ _).trans (ih _ _ _ _ h)
    | selector => exact (grows_selector _ _).trans (ih _ _ _ _ h)
    | array l e =>
      cases l with
      | num n => exact (grows_array _ _ _ _).trans (ih _ _ _ _ h)
      | badLiteral => cases h; exact Grows.refl sm
      | expr => cases h
    | struct o =>
      cases o with
      | none => cases h
      | some first =>
        rw [fieldsLoop] at h
        cases hm : mk { sm with frn := sm.frn ++ name ++ ".", rtn := first } with
        | panic => rw [hm] at h; cases h
        | deeper => rw [hm] at h; cases h
        | done s1 e1 =>
          rw [hm] at h
          have g := hmk _ _ _ hm
          exact Grows.trans (b := { s1 with frn := sm.frn }) g (ih _ _ _ _ h)

theorem grows_make (fuel : Nat) : ∀ sm sm' err, make fuel sm = .done sm' err → Grows sm sm' := by
  induction fuel with
  | zero => intro sm sm' err h; cases h
  | succ n ih =>
    intro sm sm' err h
    rw [make] at h
    split at h
    · cases h; exact Grows.refl sm
    · cases h; exact grows_header sm
    · exact (grows_header sm).trans (grows_loop _ ih _ _ _ _ _ h)

/-- C124 violated: no generated decoder compiles. Whatever the type, the decoder starts with the declaration of two variables,
`add` and `ln`, and no line of it uses either; the language forbids unused variables. -/
theorem C124_unused_variables_violated (fuel : Nat) (noCopy : Bool) (types : List (String × TDecl)) (rn typ : String) (sm : SM)
    (h : make fuel (fresh noCopy types rn typ) = .done sm none) :
    ∃ rest, sm.close.dec = .declare ["add", "ln"] :: rest ∧ ∀ l ∈ sm.close.dec, "add" ∉ l.uses ∧ "ln" ∉ l.uses := by
  have hd : (fresh noCopy types rn typ).header.dec <+: sm.dec := by
    cases fuel with
    | zero => cases h
    | succ n =>
      rw [make] at h
      split at h
      · cases h
      · cases h; exact List.prefix_refl _
      · exact (grows_loop _ (grows_make n) _ _ _ _ _ h).1
  obtain ⟨t, ht⟩ := hd
  refine ⟨_, by rw [SM.close, ← ht]; rfl, ?_⟩
  intro l _
  cases l <;> simp [DLine.uses]

/-! ## Fields treated wrongly -/

theorem make_struct (fuel : Nat) (noCopy : Bool) (types : List (String × TDecl)) (rn typ : String) (fs : List Field)
    (ht : types.lookup typ = some (.struct fs)) :
    make (fuel + 1) (fresh noCopy types rn typ) = fieldsLoop (make fuel) (members fs) (fresh noCopy types rn typ).header none := by
  rw [make, show (fresh noCopy types rn typ).types.lookup (fresh noCopy types rn typ).rtn = some (.struct fs) from ht]

/-- C124 violated: the contents of a slice of `uint64` are lost. The generated heap length has no term for it, the buffer has no room
and the copy into it stops at its end: for every slice, what is decoded is a slice of the same length made of zeros. -/
theorem C124_uint64_slice_violated (fuel : Nat) (types : List (String × TDecl)) (rn typ name : String)
    (ht : types.lookup typ = some (.struct [⟨[name], .slice (.name "uint64"), none⟩])) (e : Env) (s : List U64)
    (hv : e.val (rn ++ "." ++ name) = .dyn (.u64s s)) (hl : s.length < 2 ^ 32) :
    ∃ sm buf h, make (fuel + 1) (fresh false types rn typ) = .done sm none ∧
      encode e sm.lsi sm.close.enc (List.replicate (sm.lsi + heapLen e sm.close.heap) 0#8) 0#32 = some (buf, h) ∧
      decode e sm.lsi buf sm.close.dec [] = some (.ok [(rn ++ "." ++ name, .dyn (.u64s (List.replicate s.length 0)))]) := by
  have hm := make_struct fuel false types rn typ _ ht
  have hm' : make (fuel + 1) (fresh false types rn typ) = .done
      { noCopy := false, types := types, rn := rn, frn := rn ++ ".", rtn := typ, lsi := 8, stackSize := [], heap := [.blank],
        enc := [.bufComment, .hsiInit, .call ⟨rn ++ "." ++ name, .slice .uint64, 0, []⟩],
        dec := [.declare ["add", "ln"], .lenCheck, .call ⟨rn ++ "." ++ name, .slice .uint64, 0, []⟩ false] } none := hm
  have hdes := setDesc_eq (List.replicate 8 0#8) 0#32 8#32 (BitVec.ofNat 32 s.length) (by simp) (by simp)
  have hs : (BitVec.ofNat 32 s.length).toNat = s.length := by rw [BitVec.toNat_ofNat]; exact Nat.mod_eq_of_lt hl
  have hov : overwrite (List.replicate 8 0#8) 0 (leDigits 4 8 ++ leDigits 4 s.length) = leDigits 4 8 ++ leDigits 4 s.length := by
    simp [overwrite, leDigits_length]
  have hset : (Val.u64s s).set (List.replicate 8 0#8) 0#32 8#32 =
      some (leDigits 4 8 ++ leDigits 4 s.length, 8#32 + BitVec.ofNat 32 s.length * 8) := by
    simp only [Val.set, setUInt64Array, setDyn, Option.bind_eq_bind, len32]
    rw [← Option.bind_assoc, hdes, hs, Option.bind_some]
    rw [show (8#32).toNat = 8 from rfl, show (0#32).toNat = 0 from rfl, hov, onSliceFrom_copy_trunc _ _ _ (by simp [leDigits_length])]
    simp [leDigits_length, overwrite]
  refine ⟨_, leDigits 4 8 ++ leDigits 4 s.length, 8#32 + BitVec.ofNat 32 s.length * 8, hm', ?_, ?_⟩
  · simp only [SM.close, List.cons_append, List.nil_append, encode, heapLen, runEnc, hv, offset_nil, Nat.add_zero]
    rw [show BitVec.ofNat 32 0 = 0#32 from rfl, show BitVec.ofNat 32 8 = 8#32 from rfl, hset]
    rfl
  · simp only [SM.close, List.cons_append, List.nil_append, decode, runDec, offset_nil]
    rw [if_neg (by simp [leDigits_length])]
    have g := getDesc (leDigits 4 8 ++ leDigits 4 s.length) 0#32 8#32 (BitVec.ofNat 32 s.length) (by simp [leDigits_length])
      (by simp)
      (by rw [hs]; show List.take 8 (leDigits 4 8 ++ leDigits 4 s.length) = _; exact List.take_of_length_le (by simp [leDigits_length]))
    simp only [SlE.empty, Val.get, getUInt64Array, getDyn]
    rw [show BitVec.ofNat 32 0 = 0#32 from rfl, g.1, Option.bind_eq_bind, Option.bind_some, g.2, Option.bind_eq_bind, Option.bind_some, hs]
    simp [sliceFrom, leDigits_length, ofMem, ofMemN, goCopy]

/-- C124 violated: an array of `n` `float64` gets half the bytes it needs, so that values which differ only in their second half are
encoded the same: what follows the array overwrites it, or the buffer ends. -/
theorem C124_float64_array_violated (fuel : Nat) (noCopy : Bool) (types : List (String × TDecl)) (rn typ name : String) (n : Nat)
    (ht : types.lookup typ = some (.struct [⟨[name], .array (.num n) (.name "float64"), none⟩])) (e e' : Env) (a b c : Bytes)
    (hn : n * 4 < 2 ^ 32) (ha : a.length = n * 4)
    (hv : e.val (rn ++ "." ++ name) = .arr (a ++ b)) (hv' : e'.val (rn ++ "." ++ name) = .arr (a ++ c)) :
    ∃ sm, make (fuel + 1) (fresh noCopy types rn typ) = .done sm none ∧ sm.lsi = n * 4 ∧
      encode e sm.lsi sm.close.enc (List.replicate (sm.lsi + heapLen e sm.close.heap) 0#8) 0#32 =
        encode e' sm.lsi sm.close.enc (List.replicate (sm.lsi + heapLen e' sm.close.heap) 0#8) 0#32 ∧
      encode e sm.lsi sm.close.enc (List.replicate (sm.lsi + heapLen e sm.close.heap) 0#8) 0#32 = some (a, BitVec.ofNat 32 (n * 4)) := by
  have hm := make_struct fuel noCopy types rn typ _ ht
  have hm' : make (fuel + 1) (fresh noCopy types rn typ) = .done
      { noCopy := noCopy, types := types, rn := rn, frn := rn ++ ".", rtn := typ, lsi := 0 + n * 4, stackSize := [], heap := [.blank],
        enc := [.bufComment, .hsiInit, .call ⟨rn ++ "." ++ name, .arr 8 n, 0, []⟩],
        dec := [.declare ["add", "ln"], .lenCheck, .call ⟨rn ++ "." ++ name, .arr 8 n, 0, []⟩ noCopy] } none := hm
  have key : ∀ (e : Env) (d : Bytes), e.val (rn ++ "." ++ name) = .arr (a ++ d) →
      encode e (0 + n * 4) [.bufComment, .hsiInit, .call ⟨rn ++ "." ++ name, .arr 8 n, 0, []⟩, .ret] (List.replicate (n * 4) 0#8) 0#32 =
        some (a, BitVec.ofNat 32 (n * 4)) := by
    intro e d hd
    simp only [encode, runEnc, hd, offset_nil, setArray]
    rw [show (BitVec.ofNat 32 0).toNat = 0 from rfl, onSliceFrom_copy_trunc _ _ _ (by omega)]
    simp [overwrite, ← ha]
  refine ⟨_, hm', by simp, ?_, ?_⟩
  · simp only [SM.close, List.cons_append, List.nil_append, heapLen, Nat.add_zero]
    simp only [Nat.zero_add] at key ⊢
    rw [key e b hv, key e' c hv']
  · simp only [SM.close, List.cons_append, List.nil_append, heapLen, Nat.add_zero]
    simp only [Nat.zero_add] at key ⊢
    rw [key e b hv]

example : GSpec.arrays.lookup "float64" = none ∧ arrayCase "float64" = some (8, 4) := by decide

theorem loop_short (ss : List Bytes) : ∀ (p : Bytes) (a n : U32), a.toNat + 8 * ss.length < 2 ^ 32 → p.length < a.toNat + 8 * ss.length →
    a.toNat ≤ p.length → setStringsLoop p ss a n = none := by
  induction ss with
  | nil => intro p a n _ h h'; simp at h; omega
  | cons s r ih =>
    intro p a n hw h h'
    simp only [List.length_cons] at hw h
    have e8 : (a + 8).toNat = a.toNat + 8 := idx a 8 (by omega)
    have e4 : (a + 4).toNat = a.toNat + 4 := idx a 4 (by omega)
    simp only [setStringsLoop, Option.bind_eq_bind]
    cases h1 : setUInt32 p a n with
    | none => rfl
    | some p1 =>
      have hl1 : a.toNat + 4 ≤ p.length := by
        apply Decidable.byContradiction
        intro hc
        rw [setUInt32_none p a n (by omega) (by omega)] at h1
        cases h1
      have hp1 : p1.length = p.length := by
        rw [setUInt32_eq p a n (by omega) (by omega)] at h1
        cases h1
        exact overwrite_length _ _ _ (by simp [leDigits_length]; omega)
      rw [Option.bind_some]
      cases h2 : setUInt32 p1 (a + 4) (len32 s) with
      | none => rfl
      | some p2 =>
        have hl2 : a.toNat + 8 ≤ p.length := by
          apply Decidable.byContradiction
          intro hc
          rw [setUInt32_none p1 (a + 4) (len32 s) (by omega) (by omega)] at h2
          cases h2
        have hp2 : p2.length = p.length := by
          rw [setUInt32_eq p1 (a + 4) (len32 s) (by omega) (by omega)] at h2
          cases h2
          rw [overwrite_length _ _ _ (by simp [leDigits_length]; omega), hp1]
        rw [Option.bind_some]
        by_cases hn : n.toNat ≤ p2.length
        · rw [onSliceFrom_copy_trunc _ _ _ hn, Option.bind_some]
          apply ih
          · omega
          · rw [overwrite_length _ _ _ (by simp; omega)]; omega
          · rw [overwrite_length _ _ _ (by simp; omega)]; omega
        · rw [onSliceFrom_none _ _ _ (by omega)]; rfl

/-- C124 violated: the heap length of a slice of strings forgets the 8 bytes every string needs for its own place and length.
Whenever the strings hold fewer than 8 bytes each on average, the encoder runs over the end of the buffer of the
generated length and panics. -/
theorem C124_string_slice_violated (fuel : Nat) (noCopy : Bool) (types : List (String × TDecl)) (rn typ name : String)
    (ht : types.lookup typ = some (.struct [⟨[name], .slice (.name "string"), none⟩])) (e : Env) (ss : List Bytes)
    (hv : e.val (rn ++ "." ++ name) = .strs ss) (hshort : contentSize ss < 8 * ss.length) (hl : 8 + 8 * ss.length < 2 ^ 32) :
    ∃ sm, make (fuel + 1) (fresh noCopy types rn typ) = .done sm none ∧
      encode e sm.lsi sm.close.enc (List.replicate (sm.lsi + heapLen e sm.close.heap) 0#8) 0#32 = none := by
  have hm := make_struct fuel noCopy types rn typ _ ht
  have hm' : make (fuel + 1) (fresh noCopy types rn typ) = .done
      { noCopy := noCopy, types := types, rn := rn, frn := rn ++ ".", rtn := typ, lsi := 8, stackSize := [],
        heap := [.blank, .lens (rn ++ "." ++ name)],
        enc := [.bufComment, .hsiInit, .call ⟨rn ++ "." ++ name, .strSlice, 0, []⟩],
        dec := [.declare ["add", "ln"], .lenCheck, .call ⟨rn ++ "." ++ name, .strSlice, 0, []⟩ noCopy] } none := hm
  refine ⟨_, hm', ?_⟩
  simp only [SM.close, List.cons_append, List.nil_append, encode, heapLen, runEnc, hv, offset_nil, Nat.add_zero]
  have hd := setDesc_eq (List.replicate (8 + contentSize ss) 0#8) (BitVec.ofNat 32 0) (BitVec.ofNat 32 8) (len32 ss) (by simp) (by simp)
  have hset : setStringArray (List.replicate (8 + contentSize ss) 0#8) ss (BitVec.ofNat 32 0) (BitVec.ofNat 32 8) = none := by
    simp only [setStringArray, Option.bind_eq_bind]
    rw [← Option.bind_assoc, hd, Option.bind_some]
    have hov := overwrite_length (List.replicate (8 + contentSize ss) 0#8) (BitVec.ofNat 32 0).toNat
      (leDigits 4 (BitVec.ofNat 32 8).toNat ++ leDigits 4 (len32 ss).toNat) (by simp [leDigits_length])
    rw [List.length_replicate] at hov
    apply loop_short
    · simpa using hl
    · rw [hov]; simp; omega
    · rw [hov]; simp
  rw [hset]
  rfl

example : contentSize [[1#8], [2#8, 3#8]] < 8 * [[1#8], [2#8, 3#8]].length := by decide

/-- C124 violated: an array of strings takes no room on the stack and is not decoded. The field after it, whatever its type, is
written at the very same offset, and the decoder has no line for the array. Only the heap length counts the bytes of its strings. -/
theorem C124_string_array_violated (fuel : Nat) (noCopy : Bool) (types : List (String × TDecl)) (rn typ a b : String) (n : Nat)
    (ht : types.lookup typ = some (.struct [⟨[a], .array (.num n) (.name "string"), none⟩, ⟨[b], .ident "uint64", none⟩])) :
    ∃ sm, make (fuel + 1) (fresh noCopy types rn typ) = .done sm none ∧ sm.lsi = 8 ∧
      sm.enc = [.bufComment, .hsiInit, .call ⟨rn ++ "." ++ a, .strArr, 0, []⟩, .call ⟨rn ++ "." ++ b, .sc .uint64, 0, []⟩] ∧
      sm.dec = [.declare ["add", "ln"], .lenCheck, .call ⟨rn ++ "." ++ b, .sc .uint64, 0, []⟩ noCopy] ∧
      sm.heap = [.blank, .lens (rn ++ "." ++ a)] :=
  ⟨_, make_struct fuel noCopy types rn typ _ ht, rfl, rfl, rfl, rfl⟩

/-! ## C125: which fields take part -/

/-- The same outcome for another table of types. -/
def MRes.withTypes (T : List (String × TDecl)) : MRes → MRes
  | .done sm err => .done { sm with types := T } err
  | x => x

theorem loop_types (mk : SM → MRes) (T : List (String × TDecl)) (fs : List (String × FType)) (hs : ∀ f ∈ fs, ∀ o, f.2 ≠ .struct o) :
    ∀ (sm : SM) (err : Option GErr), fieldsLoop mk fs { sm with types := T } err = (fieldsLoop mk fs sm err).withTypes T := by
  induction fs with
  | nil => intro sm err; rfl
  | cons f fs ih =>
    intro sm err
    have ih := ih (fun g hg => hs g (by simp [hg]))
    have hf := hs f (by simp)
    obtain ⟨name, t⟩ := f
    cases t with
    | untyped => exact ih _ _
    | map => exact ih _ _
    | other => exact ih _ _
    | selector => rw [fieldsLoop, fieldsLoop, ← ih]; rfl
    | struct o => exact absurd rfl (hf o)
    | slice e =>
      rw [fieldsLoop, fieldsLoop, ← ih]
      congr 1
      cases e with
      | other => rfl
      | name s =>
        simp only [SM.slice]
        cases sliceCase s with
        | none => dsimp only; split <;> rfl
        | some x => obtain ⟨t, m⟩ := x; cases m <;> rfl
    | ident s =>
      rw [fieldsLoop, fieldsLoop, ← ih]
      congr 1
      simp only [SM.ident]
      split
      · rfl
      · cases scalarCase s with
        | some x => rfl
        | none => dsimp only; split <;> rfl
    | array l e =>
      cases l with
      | expr => rfl
      | badLiteral => rfl
      | num n =>
        rw [fieldsLoop, fieldsLoop, ← ih]
        congr 1
        cases e with
        | other => rfl
        | name s =>
          simp only [SM.array]
          cases arrayCase s with
          | some x => rfl
          | none => dsimp only; split <;> rfl

/-- **C125**: a field tagged `syllab:"-"` changes nothing: the struct with it and the struct without it get the same code, or the same
refusal. (For structs without anonymous structs in them.) -/
theorem C125_tagged_out (fuel : Nat) (noCopy : Bool) (types types' : List (String × TDecl)) (rn typ : String) (fs gs : List Field) (f : Field)
    (hf : f.tag = some "-") (hs : ∀ g ∈ fs ++ gs, ∀ o, g.typ ≠ .struct o) (h : types.lookup typ = some (.struct (fs ++ f :: gs)))
    (h' : types'.lookup typ = some (.struct (fs ++ gs))) :
    make (fuel + 1) (fresh noCopy types' rn typ) = (make (fuel + 1) (fresh noCopy types rn typ)).withTypes types' := by
  have e : members (fs ++ f :: gs) = members (fs ++ gs) := by simp [members, hf]
  rw [make_struct _ _ _ _ _ _ h, make_struct _ _ _ _ _ _ h', e, ← loop_types]
  · rfl
  · intro g hg o
    simp only [members, List.mem_flatMap, List.mem_filter, List.mem_map] at hg
    obtain ⟨k, hk, n, _, rfl⟩ := hg
    exact hs k hk.1 o

/-- **C125**: every other named field is met, each name of it once, in the order written. -/
theorem C125_members (fs : List Field) :
    (members fs).map Prod.fst = (fs.filter fun f => f.tag ≠ some "-").flatMap Field.names := by
  simp [members, List.map_flatMap, Function.comp_def]

example : (members demo).map Prod.fst = ["A", "B", "C", "S", "L", "M"] := by decide

/-- The types for which the generator writes no line. -/
def Silent : FType → Prop
  | .ident s => s = "int" ∨ s = "uint"
  | .slice .other => True
  | .slice (.name s) => s ∉ ["bool", "byte", "uint8", "int8", "uint16", "int16", "uint32", "int32", "uint64", "int64", "string"]
  | .array (.num _) .other => True
  | .array (.num _) (.name s) =>
    s ∉ ["bool", "byte", "uint8", "int8", "uint16", "int16", "uint32", "int32", "uint64", "int64", "float32", "float64", "string"]
  | .map | .untyped | .other => True
  | _ => False

theorem sliceCase_none (s : String)
    (h : s ∉ ["bool", "byte", "uint8", "int8", "uint16", "int16", "uint32", "int32", "uint64", "int64", "string"]) : sliceCase s = none := by
  simp only [List.mem_cons, not_or, List.not_mem_nil, not_false_eq_true, and_true] at h
  obtain ⟨h1, h2, h3, h4, h5, h6, h7, h8, h9, h10, _⟩ := h
  simp [sliceCase, h1, h2, h3, h4, h5, h6, h7, h8, h9, h10]

theorem arrayCase_none (s : String)
    (h : s ∉ ["bool", "byte", "uint8", "int8", "uint16", "int16", "uint32", "int32", "uint64", "int64", "float32", "float64", "string"]) :
    arrayCase s = none := by
  simp only [List.mem_cons, not_or, List.not_mem_nil, not_false_eq_true, and_true] at h
  obtain ⟨h1, h2, h3, h4, h5, h6, h7, h8, h9, h10, h11, h12, _⟩ := h
  simp [arrayCase, h1, h2, h3, h4, h5, h6, h7, h8, h9, h10, h11, h12]

/-- C226 violated: fields of type `int`, `uint`, pointers, maps, functions, interfaces, and slices and arrays of these, of floats in a
slice, or of any type declared by the user are left out without an error: the code of a struct is the same as if they
were not there, but for 8 unused bytes per slice. -/
theorem C226_left_out_violated (mk : SM → MRes) (name : String) (t : FType) (ht : Silent t) (rest : List (String × FType)) (sm : SM)
    (err : Option GErr) :
    ∃ n, (n = 0 ∨ n = 8) ∧ fieldsLoop mk ((name, t) :: rest) sm err = fieldsLoop mk rest { sm with lsi := sm.lsi + n } err := by
  cases t with
  | untyped => exact ⟨0, .inl rfl, rfl⟩
  | map => exact ⟨0, .inl rfl, rfl⟩
  | other => exact ⟨0, .inl rfl, rfl⟩
  | selector => exact absurd ht (by simp [Silent])
  | struct o => exact absurd ht (by simp [Silent])
  | ident s =>
    refine ⟨0, .inl rfl, ?_⟩
    rw [fieldsLoop, SM.ident, if_pos (show s = "int" ∨ s = "uint" from ht)]
    rfl
  | slice e =>
    refine ⟨8, .inr rfl, ?_⟩
    cases e with
    | other => rfl
    | name s =>
      rw [fieldsLoop, SM.slice, sliceCase_none s ht]
      have hs : s ≠ "string" := by
        intro hc
        subst hc
        exact absurd ht (by simp [Silent])
      simp only [if_neg hs]
      rfl
  | array l e =>
    cases l with
    | expr => exact absurd ht (by cases e <;> simp [Silent])
    | badLiteral => exact absurd ht (by cases e <;> simp [Silent])
    | num n =>
      refine ⟨0, .inl rfl, ?_⟩
      cases e with
      | other => rfl
      | name s =>
        rw [fieldsLoop, SM.array, arrayCase_none s ht]
        have hs : s ≠ "string" := by
          intro hc
          subst hc
          exact absurd ht (by simp [Silent])
        simp only [if_neg hs]
        rfl

example : Silent (.ident "int") ∧ Silent (.slice (.name "float32")) ∧ Silent (.slice (.name "User")) ∧ ¬ Silent (.ident "uint8") := by
  simp [Silent]

/-- C226 violated: an embedded field is left out without an error: it has no name to loop over. -/
theorem C226_embedded_violated (fs gs : List Field) (t : FType) (tag : Option String) :
    members (fs ++ ⟨[], t, tag⟩ :: gs) = members (fs ++ gs) := by
  simp only [members, List.filter_append, List.flatMap_append, List.filter_cons]
  split <;> simp

/-- C226 violated: a struct whose length is the name of a constant stops the generator with a panic, and one whose length is written in
another base with an error. -/
theorem C226_array_length_violated (mk : SM → MRes) (name : String) (e : Elem) (rest : List (String × FType)) (sm : SM) (err : Option GErr) :
    fieldsLoop mk ((name, .array .expr e) :: rest) sm err = .panic ∧
    fieldsLoop mk ((name, .array .badLiteral e) :: rest) sm err = .done sm (some .arrayLen) := ⟨rfl, rfl⟩

/-! ## C126: which method gets which code -/

/-- The code of a type, as its methods should get it. -/
def codeOf (fuel : Nat) (noCopy : Bool) (types : List (String × TDecl)) (rn typ : String) : MRes :=
  match make fuel (fresh noCopy types rn typ) with
  | .done sm none => .done sm.close none
  | x => x

/-- A method of the file: its receiver's name and type, and its own name. -/
structure Meth where
  rn : String
  typ : String
  name : String

def Meth.decl (m : Meth) : Decl := .method ⟨some m.rn, true, m.typ⟩ m.name

/-- The bodies the methods of a file should get: each the one of its own type. -/
def wanted (fuel : Nat) (noCopy : Bool) (types : List (String × TDecl)) : Nat → List Meth → List (Nat × Body)
  | _, [] => []
  | i, m :: r =>
    (match codeOf fuel noCopy types m.rn m.typ with
      | .done sm none => ((bodyFor sm m.name).map fun b => (i, b)).toList
      | _ => []) ++ wanted fuel noCopy types (i + 1) r

theorem prepare_new (fuel : Nat) (sm : SM) (m : Meth) (h : sm.rn ≠ m.rn) :
    sm.prepare fuel ⟨some m.rn, true, m.typ⟩ = codeOf fuel sm.noCopy sm.types m.rn m.typ := by
  simp only [SM.prepare, if_pos h, codeOf, if_neg (show ¬ (true = false) by decide)]
  have : ({ sm.reset with rn := m.rn, frn := m.rn ++ ".", rtn := m.typ } : SM) = fresh sm.noCopy sm.types m.rn m.typ := rfl
  rw [this]
  cases make fuel (fresh sm.noCopy sm.types m.rn m.typ) with
  | done s e => cases e <;> rfl
  | panic => rfl
  | deeper => rfl

theorem codeOf_keeps (fuel : Nat) (noCopy : Bool) (types : List (String × TDecl)) (rn typ : String) (sm : SM)
    (h : codeOf fuel noCopy types rn typ = .done sm none) : sm.rn = rn ∧ sm.types = types := by
  unfold codeOf at h
  split at h
  · rename_i s hs
    cases h
    have g := grows_make _ _ _ _ hs
    exact ⟨g.2.2.2.2, g.2.2.2.1⟩
  · rename_i hx
    exact absurd h (by intro hc; exact hx _ hc)

theorem header_noCopy (sm : SM) : sm.header.noCopy = sm.noCopy := by unfold SM.header; split <;> rfl

theorem loop_noCopy (mk : SM → MRes) (hmk : ∀ s s' e, mk s = .done s' e → s'.noCopy = s.noCopy) (fs : List (String × FType)) :
    ∀ sm err sm' err', fieldsLoop mk fs sm err = .done sm' err' → sm'.noCopy = sm.noCopy := by
  induction fs with
  | nil => intro sm err sm' err' h; cases h; rfl
  | cons f fs ih =>
    intro sm err sm' err' h
    obtain ⟨name, t⟩ := f
    cases t with
    | untyped => exact ih _ _ _ _ h
    | map => exact ih _ _ _ _ h
    | other => exact ih _ _ _ _ h
    | slice e =>
      rw [ih _ _ _ _ h]
      unfold SM.slice
      simp only [SM.advance]
      split
      · rfl
      · split
        · rfl
        · rfl
        · split <;> rfl
    | ident s =>
      rw [ih _ _ _ _ h]
      unfold SM.ident
      split
      · rfl
      · split
        · rfl
        · split <;> rfl
    | selector => rw [ih _ _ _ _ h]; rfl
    | array l e =>
      cases l with
      | num n =>
        rw [ih _ _ _ _ h]
        unfold SM.array
        split
        · rfl
        · split
          · rfl
          · split <;> rfl
      | badLiteral => cases h; rfl
      | expr => cases h
    | struct o =>
      cases o with
      | none => cases h
      | some first =>
        rw [fieldsLoop] at h
        cases hm : mk { sm with frn := sm.frn ++ name ++ ".", rtn := first } with
        | panic => rw [hm] at h; cases h
        | deeper => rw [hm] at h; cases h
        | done s1 e1 =>
          rw [hm] at h
          have g := hmk _ _ _ hm
          rw [ih _ _ _ _ h]
          exact g

theorem make_noCopy (fuel : Nat) : ∀ sm sm' err, make fuel sm = .done sm' err → sm'.noCopy = sm.noCopy := by
  induction fuel with
  | zero => intro sm sm' err h; cases h
  | succ n ih =>
    intro sm sm' err h
    rw [make] at h
    split at h
    · cases h; rfl
    · cases h; exact header_noCopy sm
    · rw [loop_noCopy _ ih _ _ _ _ _ h, header_noCopy]

theorem codeOf_noCopy (fuel : Nat) (noCopy : Bool) (types : List (String × TDecl)) (rn typ : String) (sm : SM)
    (h : codeOf fuel noCopy types rn typ = .done sm none) : sm.noCopy = noCopy := by
  unfold codeOf at h
  split at h
  · rename_i s hs
    cases h
    exact make_noCopy _ _ _ _ hs
  · rename_i hx
    exact absurd h (by intro hc; exact hx _ hc)

/-- The receivers are named so that no method follows one of another type with the same receiver name. -/
def WellNamed : List Meth → Prop
  | a :: b :: r => (a.rn = b.rn → a.typ = b.typ) ∧ WellNamed (b :: r)
  | _ => True

theorem methods_loop (fuel : Nat) (noCopy : Bool) (types : List (String × TDecl)) (ms : List Meth) :
    ∀ (i : Nat) (sm : SM) (out : List (Nat × Body)) (last : Option Meth),
      sm.noCopy = noCopy → sm.types = types →
      (match last with | none => ∀ m ∈ ms, sm.rn ≠ m.rn | some l => codeOf fuel noCopy types l.rn l.typ = .done sm none) →
      (match last with | none => WellNamed ms | some l => WellNamed (l :: ms)) →
      (∀ m ∈ ms, ∃ s, codeOf fuel noCopy types m.rn m.typ = .done s none) →
      declsLoop fuel i (ms.map Meth.decl) sm out = .replaced (out ++ wanted fuel noCopy types i ms) := by
  induction ms with
  | nil => intro i sm out last _ _ _ _ _; simp [declsLoop, wanted]
  | cons m r ih =>
    intro i sm out last hu ht hl hw hc
    obtain ⟨s, hs⟩ := hc m (by simp)
    have hp : sm.prepare fuel ⟨some m.rn, true, m.typ⟩ = .done s none := by
      cases last with
      | none => rw [prepare_new _ _ _ (hl m (by simp)), hu, ht, hs]
      | some l =>
        have hl' : codeOf fuel noCopy types l.rn l.typ = .done sm none := hl
        by_cases he : sm.rn = m.rn
        · have hrn := (codeOf_keeps _ _ _ _ _ _ hl').1
          have hty : l.typ = m.typ := hw.1 (by rw [← hrn, he])
          rw [← hrn, he, hty, hs] at hl'
          cases hl'
          simp [SM.prepare, he]
        · rw [prepare_new _ _ _ he, hu, ht, hs]
    have hk := codeOf_keeps _ _ _ _ _ _ hs
    rw [List.map_cons, Meth.decl, declsLoop, hp]
    simp only
    rw [ih (i + 1) s _ (some m) (codeOf_noCopy _ _ _ _ _ _ hs) hk.2 hs ?_ (fun k hk => hc k (by simp [hk]))]
    · rw [wanted, hs]
      simp
    · cases last with
      | none => exact hw
      | some l => exact hw.2

/-- **C264**: in a file that declares its types first, whose methods have named pointer receivers, and in which no method follows one of
another type with the same receiver name, every encoding method gets the code of its own type, and no other body is touched.
Not covered: the other files, for which see the `_violated` theorems.
Missing: the other files (refuted: `C264_receiver_name_violated`, `C264_order_violated`,
`C264_value_receiver_violated`). -/
theorem C264_own_code_partial (fuel : Nat) (noCopy : Bool) (ts : List (String × TDecl)) (ms : List Meth) (hn : ∀ m ∈ ms, m.rn ≠ "")
    (hw : WellNamed ms) (hc : ∀ m ∈ ms, ∃ s, codeOf fuel noCopy ts.reverse m.rn m.typ = .done s none) :
    completeMethods fuel noCopy (.types ts :: ms.map Meth.decl) = .replaced (wanted fuel noCopy ts.reverse 1 ms) := by
  rw [completeMethods, declsLoop]
  rw [methods_loop fuel noCopy ts.reverse ms 1 _ [] none rfl (by simp) (fun m hm => (hn m hm).symm) hw hc]
  rfl

/-- non-vacuity: two types, three methods -/
example : completeMethods 2 false [.types [("T", .struct [⟨["A"], .ident "uint8", none⟩]), ("U", .struct [⟨["B"], .ident "uint16", none⟩])],
    (⟨"t", "T", "syllabStackLen"⟩ : Meth).decl, (⟨"u", "U", "syllabStackLen"⟩ : Meth).decl, (⟨"u", "U", "String"⟩ : Meth).decl] =
    .replaced [(1, .stackLen 1 []), (2, .stackLen 2 [])] := by decide

/-- C264 violated: the generator tells types apart by the receiver's name alone. When a method follows one of another type with the same
receiver name (`r *Request`, then `r *Response`), it gets the code of the other type, whatever the two types are. -/
theorem C264_receiver_name_violated (fuel : Nat) (noCopy : Bool) (ts : List (String × TDecl)) (rn t u m m' : String) (hn : rn ≠ "")
    (s : SM) (hs : codeOf fuel noCopy ts.reverse rn t = .done s none) :
    completeMethods fuel noCopy [.types ts, .method ⟨some rn, true, t⟩ m, .method ⟨some rn, true, u⟩ m'] =
      .replaced (((bodyFor s m).map fun b => (1, b)).toList ++ ((bodyFor s m').map fun b => (2, b)).toList) := by
  rw [completeMethods, declsLoop, declsLoop, prepare_new _ _ ⟨rn, t, m⟩ hn.symm]
  have : codeOf fuel noCopy (ts.reverse ++ []) rn t = .done s none := by rw [List.append_nil]; exact hs
  simp only [this]
  rw [declsLoop, SM.prepare]
  have hk := (codeOf_keeps _ _ _ _ _ _ hs).1
  simp [hk, declsLoop]

example : completeMethods 2 false [.types [("T", .struct [⟨["A"], .ident "uint8", none⟩]), ("U", .struct [⟨["B"], .ident "uint16", none⟩])],
    (⟨"r", "T", "syllabStackLen"⟩ : Meth).decl, (⟨"r", "U", "syllabStackLen"⟩ : Meth).decl] =
    .replaced [(1, .stackLen 1 []), (2, .stackLen 1 [])] := by decide

/-- C264 violated: a file in which a method stands before the declaration of its type is refused as if the type did not exist, whatever
the rest of the file; Go allows any order. -/
theorem C264_order_violated (fuel : Nat) (noCopy : Bool) (rn t m : String) (hn : rn ≠ "") (rest : List Decl) :
    completeMethods (fuel + 1) noCopy (.method ⟨some rn, true, t⟩ m :: rest) = .error .neededTypeNotExist := by
  rw [completeMethods, declsLoop, prepare_new _ _ ⟨rn, t, m⟩ hn.symm]
  rfl

/-- C264 violated: a method with a value receiver, encoding method or not, stops the generator with a panic. -/
theorem C264_value_receiver_violated (fuel : Nat) (noCopy : Bool) (rn t m : String) (hn : rn ≠ "") (ts : List (String × TDecl)) (rest : List Decl) :
    completeMethods fuel noCopy (.types ts :: .method ⟨some rn, false, t⟩ m :: rest) = .panic := by
  rw [completeMethods, declsLoop, declsLoop, SM.prepare]
  simp [hn.symm]

/-! ## C127: structs inside structs -/

/-- C127 violated: the form `syllabEncoder() (buf []byte)` of the method gets a body whose allocation is only a comment. For every type
with a number as its first field the generated body writes into the nil slice and panics, for all values. -/
theorem C127_no_allocation_violated (fuel : Nat) (noCopy : Bool) (types : List (String × TDecl)) (rn typ name : String) (fs : List Field)
    (t : String) (k : Kind) (hk : scalarCase t = some (.sc k, k.size)) (hi : t ≠ "int") (hu : t ≠ "uint")
    (ht : types.lookup typ = some (.struct (⟨[name], .ident t, none⟩ :: fs))) (e : Env) (n : Nat) (hv : e.val (rn ++ "." ++ name) = .num n) (sm : SM)
    (hm : make (fuel + 1) (fresh noCopy types rn typ) = .done sm none) :
    encode e (offset e sm.lsi sm.stackSize) sm.close.enc [] 0#32 = none := by
  rw [make_struct _ _ _ _ _ _ ht] at hm
  have hmem : members (⟨[name], .ident t, none⟩ :: fs) = (name, .ident t) :: members fs := by simp [members]
  rw [hmem, fieldsLoop, SM.ident, if_neg (by simp [hi, hu]), hk] at hm
  have g := (grows_loop _ (grows_make fuel) _ _ _ _ _ hm).2.1
  obtain ⟨r, hr⟩ := g
  have hr' : sm.close.enc = .bufComment :: .hsiInit :: .call ⟨rn ++ "." ++ name, .sc k, 0, []⟩ :: (r ++ [.ret]) := by
    rw [SM.close, ← hr]
    rfl
  rw [hr']
  simp only [encode, runEnc, hv]
  have : ∀ v, k.set [] (BitVec.ofNat 32 (offset e 0 [])) v = none := by
    intro v
    cases k <;> rfl
  rw [this]
  rfl

example : scalarCase "uint32" = some (.sc .uint32, Kind.uint32.size) := by decide

/-- C127 violated: a struct with an anonymous struct in it is refused: the generator takes the name of the inner struct's first field
for the name of its type. -/
theorem C127_anonymous_violated (fuel : Nat) (noCopy : Bool) (types : List (String × TDecl)) (rn typ name first : String) (tag : Option String)
    (htag : tag ≠ some "-") (ht : types.lookup typ = some (.struct [⟨[name], .struct (some first), tag⟩])) (hf : types.lookup first = none) :
    ∃ sm, make (fuel + 2) (fresh noCopy types rn typ) = .done sm (some .neededTypeNotExist) := by
  have hm : members [⟨[name], .struct (some first), tag⟩] = [(name, .struct (some first))] := by simp [members, htag]
  have ht' : (fresh noCopy types rn typ).header.types.lookup first = none := hf
  rw [make_struct _ _ _ _ _ _ ht, hm, fieldsLoop, make]
  simp only [ht', fieldsLoop]
  exact ⟨_, rfl⟩

theorem endless (n : Nat) : ∀ sm : SM, sm.types.lookup sm.rtn = some (.struct [⟨["a"], .struct (some sm.rtn), none⟩]) → make n sm = .deeper := by
  induction n with
  | zero => intro sm _; rfl
  | succ n ih =>
    intro sm h
    rw [make, h]
    have hm : members [⟨["a"], .struct (some sm.rtn), none⟩] = [("a", .struct (some sm.rtn))] := by simp [members]
    have hh : sm.header.types = sm.types := (grows_header sm).2.2.2.1
    simp only [hm, fieldsLoop]
    rw [ih _ (by simp only [hh]; exact h)]

/-- C127 violated: a type whose anonymous inner struct starts with a field named like the type, as in
`type T struct { a struct { T int } }`, makes the generator call itself without end. -/
theorem C127_endless_violated (n : Nat) (noCopy : Bool) (types : List (String × TDecl)) (rn typ : String)
    (h : types.lookup typ = some (.struct [⟨["a"], .struct (some typ), none⟩])) :
    make n (fresh noCopy types rn typ) = .deeper := endless n _ h

/-- What a generated exported encoder does when an outer one calls it: its body takes no notice of the indexes it is given, and its
result is never set. -/
def exportedEncoder (e : Env) (stack : Nat) (body : List ELine) (buf : Bytes) (_stackIndex _heapIndex : U32) : Option (Bytes × U32) :=
  (encode e stack body buf 0#32).map fun x => (x.1, 0#32)

/-- C127 violated: the code of a struct inside a struct destroys the outer one. For a struct of a byte and a struct of another package
that itself is one byte, with generated methods: the inner byte is written over the outer one, and its own place stays zero,
for all values. -/
theorem C127_nested_violated (fuel : Nat) (noCopy : Bool) (types types' : List (String × TDecl)) (rn typ a b rn' typ' c : String)
    (ht : types.lookup typ = some (.struct [⟨[a], .ident "byte", none⟩, ⟨[b], .selector, none⟩]))
    (ht' : types'.lookup typ' = some (.struct [⟨[c], .ident "byte", none⟩])) (e inner : Env) (x y : Byte)
    (hx : e.val (rn ++ "." ++ a) = .num x.toNat) (hy : inner.val (rn' ++ "." ++ c) = .num y.toNat)
    (hst : e.nestStack (rn ++ "." ++ b) = 1) (hh : e.nestHeap (rn ++ "." ++ b) = 0)
    (he : ∀ sm', make (fuel + 1) (fresh noCopy types' rn' typ') = .done sm' none →
      e.nestEnc (rn ++ "." ++ b) = exportedEncoder inner sm'.lsi sm'.close.enc) :
    ∃ sm h, make (fuel + 1) (fresh noCopy types rn typ) = .done sm none ∧ offset e sm.lsi sm.stackSize = 2 ∧
      encode e (offset e sm.lsi sm.stackSize) sm.close.enc
        (List.replicate (offset e sm.lsi sm.stackSize + heapLen e sm.close.heap) 0#8) 0#32 = some ([y, 0], h) := by
  have hi := he _ (make_struct fuel noCopy types' rn' typ' _ ht')
  have hm := make_struct fuel noCopy types rn typ _ ht
  have hm' : make (fuel + 1) (fresh noCopy types rn typ) = .done
      { noCopy := noCopy, types := types, rn := rn, frn := rn ++ ".", rtn := typ, lsi := 1, stackSize := [rn ++ "." ++ b],
        heap := [.blank, .nested (rn ++ "." ++ b)],
        enc := [.bufComment, .hsiInit, .call ⟨rn ++ "." ++ a, .sc .byte, 0, []⟩, .call ⟨rn ++ "." ++ b, .selector, 1, []⟩],
        dec := [.declare ["add", "ln"], .lenCheck, .call ⟨rn ++ "." ++ a, .sc .byte, 0, []⟩ noCopy,
          .call ⟨rn ++ "." ++ b, .selector, 1, []⟩ noCopy] } none := hm
  have ho : offset e 1 [rn ++ "." ++ b] = 2 := by simp [offset, hst]
  refine ⟨_, 0#32, hm', ho, ?_⟩
  have hb : BitVec.ofNat (8 * Kind.byte.size) x.toNat = x := by simp [Kind.size]
  have hb' : BitVec.ofNat (8 * Kind.byte.size) y.toNat = y := by simp [Kind.size]
  simp only [ho, SM.close, List.cons_append, List.nil_append, encode, heapLen, hh, runEnc, hx, offset_nil, hi]
  rw [hb]
  have hin : exportedEncoder inner 1 [.bufComment, .hsiInit, .call ⟨rn' ++ "." ++ c, .sc .byte, 0, []⟩, .ret] [x, 0] (BitVec.ofNat 32 1)
      (BitVec.ofNat 32 2) = some ([y, 0], 0#32) := by
    simp only [exportedEncoder, encode, runEnc, hy, offset_nil]
    rw [hb']
    rfl
  show (exportedEncoder inner 1 [.bufComment, .hsiInit, .call ⟨rn' ++ "." ++ c, .sc .byte, 0, []⟩, .ret] [x, 0] (BitVec.ofNat 32 1)
    (BitVec.ofNat 32 2)).bind (fun x => some (x.1, x.2)) = _
  rw [hin]
  rfl

/-- Beside `C124_roundtrip_partial`. -/
theorem demo_meets : (∀ f ∈ members demo, GSpec.stackBytes f.2 ≠ none) ∧
    (∀ f ∈ members demo, GSpec.Has f.2 (demoEnv.val ("r" ++ "." ++ f.1))) ∧
    GSpec.stack (members demo) + GSpec.heap demoEnv.val "r" (members demo) < 2 ^ 32 := by
  refine ⟨by decide, ?_, by decide⟩
  have hm : members demo = [("A", .ident "bool"), ("B", .ident "uint16"), ("C", .ident "uint16"), ("S", .ident "string"),
    ("L", .slice (.name "int16")), ("M", .array (.num 3) (.name "byte"))] := by decide
  rw [hm]
  intro f hf
  simp only [List.mem_cons, List.not_mem_nil, or_false] at hf
  rcases hf with rfl | rfl | rfl | rfl | rfl | rfl
  · exact .inl ⟨rfl, true, by decide⟩
  · exact .inr (.inr ⟨by decide, by decide, 0x102, 2, by decide, by decide, by decide⟩)
  · exact .inr (.inr ⟨by decide, by decide, 7, 2, by decide, by decide, by decide⟩)
  · exact .inr (.inl ⟨rfl, [0x61, 0x62], by decide⟩)
  · exact .inr (.inr (.inl ⟨by decide, [5, 6], by decide⟩))
  · exact ⟨[1, 2, 3], 1, by decide, by decide, by decide⟩

example := C124_roundtrip_partial 2 false [("T", .struct demo)] "r" "T" demo rfl demo_meets.1 demoEnv demo_meets.2.1 demo_meets.2.2
example : ∃ sm rest, make 3 (fresh false [("T", .struct demo)] "r" "T") = .done sm none ∧ sm.close.dec = .declare ["add", "ln"] :: rest := by
  obtain ⟨sm, h, -⟩ :=
    C124_roundtrip_partial 2 false [("T", .struct demo)] "r" "T" demo rfl demo_meets.1 demoEnv demo_meets.2.1 demo_meets.2.2
  obtain ⟨rest, h2, -⟩ := C124_unused_variables_violated 3 false _ _ _ sm h
  exact ⟨sm, rest, h, h2⟩
example := C124_uint64_slice_violated 2 [("T", .struct [⟨["A"], .slice (.name "uint64"), none⟩])] "r" "T" "A" rfl
  { demoEnv with val := fun _ => .dyn (.u64s [7, 9]) } [7, 9] rfl (by decide)
example := C124_string_array_violated 2 false [("T", .struct [⟨["A"], .array (.num 3) (.name "string"), none⟩, ⟨["B"], .ident "uint64", none⟩])]
  "r" "T" "A" "B" 3 rfl
example := C125_tagged_out 2 false [("T", .struct [⟨["A"], .ident "bool", none⟩, ⟨["X"], .ident "int", some "-"⟩, ⟨["B"], .ident "byte", none⟩])]
  [("T", .struct [⟨["A"], .ident "bool", none⟩, ⟨["B"], .ident "byte", none⟩])] "r" "T" [⟨["A"], .ident "bool", none⟩]
  [⟨["B"], .ident "byte", none⟩] ⟨["X"], .ident "int", some "-"⟩ rfl (by simp) rfl rfl
example := C264_order_violated 2 false "r" "T" "syllabStackLen" (by decide) [.types [("T", .struct demo)]]
example := C264_value_receiver_violated 2 false "r" "T" "String" (by decide) [("T", .struct demo)] []
example := C127_anonymous_violated 2 false [("T", .struct [⟨["A"], .struct (some "B"), none⟩])] "r" "T" "A" "B" none (by decide) rfl rfl
example := C127_endless_violated 9 false [("T", .struct [⟨["a"], .struct (some "T"), none⟩])] "r" "T" rfl

/-- A struct with a nested one, each with one byte. -/
def exInner : Env := { demoEnv with val := fun _ => .num 9 }
def exInnerTypes : List (String × TDecl) := [("U", .struct [⟨["C"], .ident "byte", none⟩])]
def exOuter : Env :=
  { demoEnv with
    val := fun _ => .num 7
    nestStack := fun _ => 1
    nestEnc := fun _ => match make 3 (fresh false exInnerTypes "u" "U") with
      | .done sm' none => exportedEncoder exInner sm'.lsi sm'.close.enc
      | _ => fun _ _ _ => none }

example := C127_nested_violated 2 false [("T", .struct [⟨["A"], .ident "byte", none⟩, ⟨["B"], .selector, none⟩])] exInnerTypes "r" "T" "A" "B"
  "u" "U" "C" rfl rfl exOuter exInner 7 9 rfl rfl rfl rfl (fun sm' h => by
    have h' : make 3 (fresh false exInnerTypes "u" "U") = .done sm' none := h
    simp only [exOuter]
    rw [h'])

end Memar.Syllab.Gen
