import Verif.Syllab.GenProps2

/-!
# More about the generator of encoders and decoders (C124, C126)
-/

namespace Memar.Syllab.Gen
open Memar Memar.Binary Spec

/-- **C126**: a method gets a body exactly by its name, in either spelling: the decoder, the encoder, the two lengths, or their sum. Any other method keeps
the body it has. -/
theorem C126_names (sm : SM) (m : String) :
    (m ∈ ["syllabDecoder", "SyllabDecoder"] → bodyFor sm m = some (.decoder sm.dec)) ∧
    (m ∈ ["syllabEncoder", "SyllabEncoder"] → bodyFor sm m = some (.encoder sm.enc)) ∧
    (m ∈ ["syllabStackLen", "SyllabStackLen"] → bodyFor sm m = some (.stackLen sm.lsi sm.stackSize)) ∧
    (m ∈ ["syllabHeapLen", "SyllabHeapLen"] → bodyFor sm m = some (.heapLen sm.heap)) ∧
    (m ∈ ["syllabLen", "SyllabLen"] → bodyFor sm m = some (.len sm.rn)) ∧
    (bodyFor sm m = none ↔ m ∉ ["syllabDecoder", "SyllabDecoder", "syllabEncoder", "SyllabEncoder", "syllabStackLen", "SyllabStackLen",
      "syllabHeapLen", "SyllabHeapLen", "syllabLen", "SyllabLen"]) := by
  refine ⟨?_, ?_, ?_, ?_, ?_, ?_⟩
  · intro h; simp only [List.mem_cons, List.not_mem_nil, or_false] at h; rcases h with rfl | rfl <;> simp [bodyFor]
  · intro h; simp only [List.mem_cons, List.not_mem_nil, or_false] at h; rcases h with rfl | rfl <;> simp [bodyFor]
  · intro h; simp only [List.mem_cons, List.not_mem_nil, or_false] at h; rcases h with rfl | rfl <;> simp [bodyFor]
  · intro h; simp only [List.mem_cons, List.not_mem_nil, or_false] at h; rcases h with rfl | rfl <;> simp [bodyFor]
  · intro h; simp only [List.mem_cons, List.not_mem_nil, or_false] at h; rcases h with rfl | rfl <;> simp [bodyFor]
  · unfold bodyFor
    simp only [List.mem_cons, List.not_mem_nil, or_false]
    (repeat' split) <;> grind

theorem funcs_loop (fuel : Nat) (rest : List Decl) (sm : SM) (out : List (Nat × Body)) (n : Nat) : ∀ i,
    declsLoop fuel i (List.replicate n .func ++ rest) sm out = declsLoop fuel (i + n) rest sm out := by
  induction n with
  | zero => intro i; rfl
  | succ n ih => intro i; rw [List.replicate_succ, List.cons_append, declsLoop, ih]; congr 1; omega

/-- **C126**: functions that are not methods, however many stand before it, do not disturb a method: its own body is replaced, with the code of its type. -/
theorem C126_functions (fuel : Nat) (noCopy : Bool) (ts : List (String × TDecl)) (n k : Nat) (rn typ m : String) (s : SM) (b : Body) (hn : rn ≠ "")
    (hs : codeOf fuel noCopy ts.reverse rn typ = .done s none) (hb : bodyFor s m = some b) :
    completeMethods fuel noCopy (List.replicate k .func ++ .types ts :: (List.replicate n .func ++ [.method ⟨some rn, true, typ⟩ m])) =
      .replaced [(k + 1 + n, b)] := by
  have : codeOf fuel noCopy (ts.reverse ++ []) rn typ = .done s none := by rw [List.append_nil]; exact hs
  rw [completeMethods, funcs_loop, declsLoop, funcs_loop, declsLoop, prepare_new _ _ ⟨rn, typ, m⟩ hn.symm]
  simp only [this, hb, Nat.zero_add]
  rfl

example : completeMethods 2 false ([.func, .types [("T", .struct [⟨["A"], .ident "uint8", none⟩])], .func, .func] ++
    [(⟨"t", "T", "SyllabStackLen"⟩ : Meth).decl]) = .replaced [(4, .stackLen 1 [])] := by decide

/-- The names with a meaning of their own as types of fields. -/
def builtin : List String :=
  ["bool", "byte", "int8", "uint8", "int16", "uint16", "int32", "uint32", "int64", "uint64", "float32", "float64", "int", "uint", "string"]

theorem ident_nested (sm : SM) (name s : String) (h : s ∉ builtin) :
    sm.ident name s = { (sm.emit name .nested).heapLine (.nested (sm.frn ++ name)) with stackSize := sm.stackSize ++ [sm.frn ++ name] } := by
  simp only [builtin, List.mem_cons, List.not_mem_nil, or_false, not_or] at h
  obtain ⟨h1, h2, h3, h4, h5, h6, h7, h8, h9, h10, h11, h12, h13, h14, h15⟩ := h
  simp [SM.ident, scalarCase, h1, h2, h3, h4, h5, h6, h7, h8, h9, h10, h11, h12, h13, h14, h15, SM.emit, SM.heapLine]

theorem nested_loop (mk : SM → MRes) (e : Env) (fs : List (String × FType)) (hf : ∀ f ∈ fs, f.2 = .selector ∨ ∃ s, f.2 = .ident s ∧ s ∉ builtin) :
    ∀ (sm : SM) (err : Option GErr), ∃ sm' hs, fieldsLoop mk fs sm err = .done sm' err ∧ sm'.lsi = sm.lsi ∧ sm'.heap = sm.heap ++ hs ∧
      sm'.stackSize = sm.stackSize ++ fs.map (fun f => sm.frn ++ f.1) ∧
      heapLen e (hs ++ [.ret]) = (fs.map fun f => e.nestHeap (sm.frn ++ f.1)).sum := by
  induction fs with
  | nil => intro sm err; exact ⟨sm, [], rfl, rfl, by simp, by simp, by simp [heapLen]⟩
  | cons f fs ih =>
    intro sm err
    obtain ⟨name, t⟩ := f
    have hstep : ∃ sm1 : SM, fieldsLoop mk ((name, t) :: fs) sm err = fieldsLoop mk fs sm1 err ∧ sm1.lsi = sm.lsi ∧ sm1.frn = sm.frn ∧
        sm1.heap = sm.heap ++ [.nested (sm.frn ++ name)] ∧ sm1.stackSize = sm.stackSize ++ [sm.frn ++ name] := by
      rcases hf (name, t) (by simp) with h | ⟨s, h, hs⟩
      · simp only at h; subst h
        exact ⟨sm.selector name, rfl, rfl, rfl, rfl, rfl⟩
      · simp only at h; subst h
        exact ⟨sm.ident name s, rfl, by rw [ident_nested _ _ _ hs]; rfl, by rw [ident_nested _ _ _ hs]; rfl, by rw [ident_nested _ _ _ hs]; rfl,
          by rw [ident_nested _ _ _ hs]⟩
    obtain ⟨sm1, g1, g2, g3, g4, g5⟩ := hstep
    obtain ⟨sm', hs, k1, k2, k3, k4, k5⟩ := ih (fun f hf' => hf f (by simp [hf'])) sm1 err
    refine ⟨sm', .nested (sm.frn ++ name) :: hs, by rw [g1, k1], by rw [k2, g2], by rw [k3, g4]; simp, by rw [k4, g5, g3]; simp, ?_⟩
    rw [List.cons_append, heapLen, k5, g3]
    simp

/-- **C124**: for a struct whose fields are all of types that have methods of their own, of the same package or another one, the heap length that is
generated is the sum of theirs, and the stack length the sum of theirs.
Missing: the field types the generator treats wrongly, and that the generated code compiles
(refuted: `C124_unused_variables_violated`, `C124_uint64_slice_violated`,
`C124_float64_array_violated` and others). -/
theorem C124_nested_lengths_partial (fuel : Nat) (noCopy : Bool) (types : List (String × TDecl)) (rn typ : String) (fs : List Field)
    (ht : types.lookup typ = some (.struct fs)) (e : Env) (hf : ∀ f ∈ members fs, f.2 = .selector ∨ ∃ s, f.2 = .ident s ∧ s ∉ builtin) :
    ∃ sm, make (fuel + 1) (fresh noCopy types rn typ) = .done sm none ∧
      heapLen e sm.close.heap = ((members fs).map fun f => e.nestHeap (rn ++ "." ++ f.1)).sum ∧
      offset e sm.lsi sm.stackSize = ((members fs).map fun f => e.nestStack (rn ++ "." ++ f.1)).sum := by
  obtain ⟨sm', hs, k1, k2, k3, k4, k5⟩ := nested_loop (make fuel) e (members fs) hf (fresh noCopy types rn typ).header none
  refine ⟨sm', ?_, ?_, ?_⟩
  · rw [make, show (fresh noCopy types rn typ).types.lookup (fresh noCopy types rn typ).rtn = some (.struct fs) from ht]
    exact k1
  · rw [SM.close, k3]
    show heapLen e ([.blank] ++ hs ++ [.ret]) = _
    rw [List.append_assoc, List.cons_append, List.nil_append, heapLen, k5]
    rfl
  · rw [offset, k2, k4]
    show 0 + (([] ++ (members fs).map fun (f : String × FType) => rn ++ "." ++ f.1).map e.nestStack).sum = _
    simp [Function.comp_def]

example : ∀ f ∈ members [⟨["A", "B"], .ident "Time", none⟩, ⟨["C"], .selector, none⟩], f.2 = .selector ∨ ∃ s, f.2 = .ident s ∧ s ∉ builtin := by
  intro f hf
  simp [members] at hf
  rcases hf with rfl | rfl | rfl <;> simp [builtin]

/-- **C124**: every generated heap length that has no lines to add is zero, also one that was not closed. -/
theorem C124_no_heap (e : Env) : heapLen e [] = 0 ∧ heapLen e [.blank] = 0 ∧ heapLen e [.blank, .ret] = 0 := ⟨rfl, rfl, rfl⟩

/-- **C124**: a struct of floats, of however many of either size, has the stack length of all of them and no heap.
Missing: the field types the generator treats wrongly, and that the generated code compiles
(refuted: `C124_unused_variables_violated`, `C124_uint64_slice_violated`,
`C124_float64_array_violated` and others). -/
theorem C124_floats_partial (fuel : Nat) (noCopy : Bool) (types : List (String × TDecl)) (rn typ : String) (fs : List Field)
    (ht : types.lookup typ = some (.struct fs)) (hf : ∀ f ∈ members fs, f.2 = .ident "float32" ∨ f.2 = .ident "float64") :
    ∃ sm, make (fuel + 1) (fresh noCopy types rn typ) = .done sm none ∧
      sm.lsi = 4 * ((members fs).filter (fun f => f.2 = .ident "float32")).length + 8 * ((members fs).filter (fun f => f.2 = .ident "float64")).length ∧
      sm.stackSize = [] ∧ sm.heap = [.blank] := by
  have key : ∀ (l : List (String × FType)) (sm : SM), (∀ f ∈ l, f.2 = .ident "float32" ∨ f.2 = .ident "float64") →
      ∃ sm', fieldsLoop (make fuel) l sm none = .done sm' none ∧ sm'.lsi = sm.lsi + 4 * (l.filter (fun f => f.2 = .ident "float32")).length +
        8 * (l.filter (fun f => f.2 = .ident "float64")).length ∧ sm'.stackSize = sm.stackSize ∧ sm'.heap = sm.heap := by
    intro l
    induction l with
    | nil => intro sm _; exact ⟨sm, rfl, by simp, rfl, rfl⟩
    | cons f l ih =>
      intro sm h
      obtain ⟨name, t⟩ := f
      have h0 := h (name, t) (by simp)
      simp only at h0
      rcases h0 with rfl | rfl
      · obtain ⟨sm', k1, k2, k3, k4⟩ := ih ((sm.emit name .f32).advance 4) (fun f hf => h f (by simp [hf]))
        refine ⟨sm', by rw [fieldsLoop, show sm.ident name "float32" = (sm.emit name .f32).advance 4 from rfl]; exact k1, ?_, k3, k4⟩
        rw [k2, List.filter_cons_of_pos (by simp), List.filter_cons_of_neg (by simp)]
        simp only [SM.advance, SM.emit, List.length_cons]; omega
      · obtain ⟨sm', k1, k2, k3, k4⟩ := ih ((sm.emit name .f64).advance 8) (fun f hf => h f (by simp [hf]))
        refine ⟨sm', by rw [fieldsLoop, show sm.ident name "float64" = (sm.emit name .f64).advance 8 from rfl]; exact k1, ?_, k3, k4⟩
        rw [k2, List.filter_cons_of_neg (by simp), List.filter_cons_of_pos (by simp)]
        simp only [SM.advance, SM.emit, List.length_cons]; omega
  obtain ⟨sm', k1, k2, k3, k4⟩ := key (members fs) (fresh noCopy types rn typ).header hf
  refine ⟨sm', ?_, ?_, k3, k4⟩
  · rw [make, show (fresh noCopy types rn typ).types.lookup (fresh noCopy types rn typ).rtn = some (.struct fs) from ht]
    exact k1
  · rw [k2]; show 0 + _ + _ = _; omega

example : make 1 (fresh false [("T", .struct [⟨["A", "B"], .ident "float64", none⟩, ⟨["C"], .ident "float32", none⟩])] "t" "T") ≠ .panic := by decide

/-- C124 violated: the decoder of an array accepts a buffer that ends before it: the array is then zero from there on. -/
theorem C124_short_array_violated (e : Env) (path : String) (w n off : Nat) (noCopy : Bool) (buf : Bytes) (ho : off < 4294967296) (hl : buf.length = off) :
    runDec e ⟨path, .arr w n, off, []⟩ noCopy buf = some (.arr (List.replicate (n * w) 0#8)) := by
  have : (BitVec.ofNat 32 (offset e off [])).toNat = off := by
    simp only [offset, List.map_nil, List.sum_nil, Nat.add_zero, BitVec.toNat_ofNat]
    exact Nat.mod_eq_of_lt ho
  simp only [runDec, this, sliceFrom, hl, Nat.le_refl, if_true, Option.map_some]
  rw [← hl, List.drop_length]
  simp [goCopy]

example (e : Env) : runDec e ⟨"t.A", .arr 2 3, 2, []⟩ false [9, 9] = some (.arr [0, 0, 0, 0, 0, 0]) :=
  C124_short_array_violated e "t.A" 2 3 2 false [9, 9] (by decide) rfl

end Memar.Syllab.Gen
