import Verif.Os.Props

/-!
# Properties of the application's files and directories (C114, C115)
-/

namespace Memar.Os
open Memar.File

/-! ## C114: listing and searching one directory -/

/-- Specification: byte-wise order of names, as the order of lists of numbers. -/
def Spec.before (a b : Bytes) : Prop := a.map BitVec.toNat < b.map BitVec.toNat

theorem bytesLe_iff (a b : Bytes) : insertKey.bytesLe a b = true ↔ a = b ∨ Spec.before a b := by
  unfold Spec.before
  induction a generalizing b with
  | nil => cases b <;> simp [insertKey.bytesLe]
  | cons x s ih =>
    cases b with
    | nil => simp [insertKey.bytesLe]
    | cons y t =>
      simp only [insertKey.bytesLe, Bool.or_eq_true, decide_eq_true_eq, Bool.and_eq_true, beq_iff_eq, ih, List.map_cons,
        List.cons_lt_cons_iff, List.cons.injEq, BitVec.toNat_inj]
      constructor
      · rintro (h | ⟨h1, h2 | h2⟩)
        · exact .inr (.inl h)
        · exact .inl ⟨h1, h2⟩
        · exact .inr (.inr ⟨h1, h2⟩)
      · rintro (⟨h1, h2⟩ | h | ⟨h1, h2⟩)
        · exact .inr ⟨h1, .inl h2⟩
        · exact .inl h
        · exact .inr ⟨h1, .inr h2⟩

theorem before_total (a b : Bytes) : a = b ∨ Spec.before a b ∨ Spec.before b a := by
  unfold Spec.before
  induction a generalizing b with
  | nil => cases b <;> simp
  | cons x s ih =>
    cases b with
    | nil => simp
    | cons y t =>
      simp only [List.map_cons, List.cons_lt_cons_iff, List.cons.injEq, BitVec.toNat_inj]
      rcases Nat.lt_trichotomy x.toNat y.toNat with h | h | h
      · exact .inr (.inl (.inl h))
      · have h := BitVec.toNat_inj.1 h
        subst h
        rcases ih t with h | h | h
        · exact .inl ⟨rfl, h⟩
        · exact .inr (.inl (.inr ⟨rfl, h⟩))
        · exact .inr (.inr (.inr ⟨rfl, h⟩))
      · exact .inr (.inr (.inl h))

theorem before_trans {a b c : Bytes} (h : Spec.before a b) (h' : Spec.before b c) : Spec.before a c := List.lt_trans h h'

theorem insertKey_perm (k : Bytes) (l : List Bytes) : (insertKey k l).Perm (k :: l) := by
  induction l with
  | nil => exact .refl _
  | cons x t ih =>
    unfold insertKey
    split
    · exact .refl _
    · exact (List.Perm.cons x ih).trans (List.Perm.swap k x t)

theorem sortKeys_perm (l : List Bytes) : (sortKeys l).Perm l := by
  induction l with
  | nil => exact .refl _
  | cons k t ih => exact (insertKey_perm _ _).trans (.cons _ ih)

theorem insertKey_sorted (k : Bytes) (l : List Bytes) (h : l.Pairwise Spec.before) (hk : k ∉ l) :
    (insertKey k l).Pairwise Spec.before := by
  induction l with
  | nil => simp [insertKey]
  | cons x t ih =>
    have hx := List.pairwise_cons.1 h
    simp only [List.mem_cons, not_or] at hk
    unfold insertKey
    split
    · rename_i hle
      rcases (bytesLe_iff k x).1 hle with e | hb
      · exact absurd e hk.1
      · refine List.pairwise_cons.2 ⟨?_, h⟩
        intro y hy
        rcases List.mem_cons.1 hy with e | hy
        · subst e; exact hb
        · exact before_trans hb (hx.1 y hy)
    · rename_i hle
      refine List.pairwise_cons.2 ⟨?_, ih hx.2 hk.2⟩
      intro y hy
      rcases List.mem_cons.1 ((insertKey_perm k t).subset hy) with e | hy
      · subst e
        rcases before_total y x with e | hb | hb
        · exact absurd e hk.1
        · exact absurd ((bytesLe_iff y x).2 (.inr hb)) hle
        · exact hb
      · exact hx.1 y hy

theorem sortKeys_sorted (l : List Bytes) (h : l.Nodup) : (sortKeys l).Pairwise Spec.before := by
  induction l with
  | nil => simp [sortKeys]
  | cons k t ih =>
    have := List.nodup_cons.1 h
    exact insertKey_sorted _ _ (ih this.2) (fun e => this.1 ((sortKeys_perm t).subset e))

theorem lookup_mem {m : List (Bytes × Option Nat)} (hn : (m.map (·.1)).Nodup) (k : Bytes) (hk : k ∈ m.map (·.1)) :
    (k, lookup m k) ∈ m := by
  induction m with
  | nil => simp at hk
  | cons e t ih =>
    obtain ⟨k', v⟩ := e
    rw [List.map_cons, List.nodup_cons] at hn
    rw [lookup_cons]
    by_cases h : k' = k
    · rw [if_pos h, h]; simp
    · rw [if_neg h]
      refine List.mem_cons_of_mem _ (ih hn.2 ?_)
      rcases List.mem_cons.1 hk with e | hk
      · exact absurd e.symm h
      · exact hk

/-- **C114**: a listing holds every file of the directory exactly once, in increasing order of the names. -/
theorem C114_listing_sorted (n : DirNode) (hn : (n.files.map (·.1)).Nodup) (offset limit : U64) :
    ∃ es : List (Bytes × Option Nat), es.Perm n.files ∧ (es.map (·.1)).Pairwise Spec.before ∧
      filesOf n offset limit = es.map fun e => Iface.ptr e.2 := by
  refine ⟨(sortKeys (n.files.map (·.1))).map fun k => (k, lookup n.files k), ?_, ?_, ?_⟩
  · have h1 : ((sortKeys (n.files.map (·.1))).map fun k => (k, lookup n.files k)).Perm
        ((n.files.map (·.1)).map fun k => (k, lookup n.files k)) := (sortKeys_perm _).map _
    refine h1.trans ?_
    suffices ((n.files.map (·.1)).map fun k => (k, lookup n.files k)) = n.files by rw [this]
    rw [List.map_map]
    have : ∀ e ∈ n.files, (fun e : Bytes × Option Nat => (e.1, lookup n.files e.1)) e = id e := by
      intro e he
      have hm := lookup_mem hn e.1 (List.mem_map.2 ⟨e, he, rfl⟩)
      have hu : ∀ (m : List (Bytes × Option Nat)), (m.map (·.1)).Nodup → ∀ k a b, (k, a) ∈ m → (k, b) ∈ m → a = b := by
        intro m
        induction m with
        | nil => simp
        | cons x t ih =>
          intro hnd k a b ha hb
          rw [List.map_cons, List.nodup_cons] at hnd
          rcases List.mem_cons.1 ha with ha | ha <;> rcases List.mem_cons.1 hb with hb | hb
          · rw [← ha] at hb; exact (Prod.mk.inj hb).2.symm
          · exact absurd (List.mem_map.2 ⟨_, hb, by rw [← ha]⟩) hnd.1
          · exact absurd (List.mem_map.2 ⟨_, ha, by rw [← hb]⟩) hnd.1
          · exact ih hnd.2 k a b ha hb
      have := hu _ hn e.1 _ _ hm he
      simp only [this, id]
    calc n.files.map ((fun k => (k, lookup n.files k)) ∘ (·.1)) = n.files.map id := List.map_congr_left this
      _ = n.files := List.map_id _
  · rw [List.map_map]
    have : ((fun e : Bytes × Option Nat => e.1) ∘ fun k => (k, lookup n.files k)) = id := rfl
    rw [this, List.map_id]
    exact sortKeys_sorted _ hn
  · unfold filesOf
    rw [List.map_map]; rfl

/-- C219 violated: a listing starts at `offset` and holds at most `limit` files. Here both are ignored: every page is the
whole directory. -/
theorem C219_paging_violated (n : DirNode) (offset limit : U64) :
    (filesOf n offset limit).length = n.files.length ∧ filesOf n offset limit = filesOf n 0 0 := by
  refine ⟨?_, rfl⟩
  unfold filesOf
  rw [List.length_map, (sortKeys_perm _).length_eq, List.length_map]

theorem contains_iff (s sub : Bytes) : contains s sub = true ↔ ∃ a b, s = a ++ sub ++ b := by
  unfold contains
  simp only [List.any_eq_true, List.mem_range, List.isPrefixOf_iff_prefix]
  constructor
  · rintro ⟨i, _, t, ht⟩
    exact ⟨s.take i, t, by rw [List.append_assoc, ht, List.take_append_drop]⟩
  · rintro ⟨a, b, rfl⟩
    exact ⟨a.length, by simp; omega, b, by simp⟩

theorem findFiles_eq (part : Bytes) (num : U64) (order : List (Bytes × Option Nat)) (acc : List Iface)
    (hacc : num.toInt ≤ 0 ∨ (acc.length : Int) < num.toInt) :
    findFiles part num order acc = acc ++ (if num.toInt ≤ 0 then (order.filter fun e => contains e.1 part).map fun e => Iface.ptr e.2
      else ((order.filter fun e => contains e.1 part).map fun e => Iface.ptr e.2).take (num.toInt.toNat - acc.length)) := by
  induction order generalizing acc with
  | nil => simp [findFiles]
  | cons e t ih =>
    obtain ⟨k, f⟩ := e
    unfold findFiles
    by_cases hc : contains k part = true
    · rw [if_pos hc, List.filter_cons, if_pos hc]
      simp only [List.map_cons]
      by_cases hz : num.toInt ≤ 0
      · rw [if_neg (by simp; omega), ih _ (.inl hz), if_pos hz, if_pos hz]; simp
      · rcases hacc with hacc | hacc
        · exact absurd hacc hz
        by_cases he : ((acc ++ [Iface.ptr f]).length : Int) = num.toInt
        · rw [if_pos he, if_neg hz]
          simp only [List.length_append, List.length_cons, List.length_nil] at he
          have : num.toInt.toNat - acc.length = 1 := by omega
          rw [this]; simp
        · rw [if_neg he]
          simp only [List.length_append, List.length_cons, List.length_nil] at he
          rw [ih _ (.inr (by simp; omega)), if_neg hz, if_neg hz]
          obtain ⟨m, hm⟩ : ∃ m, num.toInt.toNat - acc.length = m + 1 := ⟨num.toInt.toNat - acc.length - 1, by omega⟩
          rw [hm, List.take_succ_cons, List.append_assoc]
          congr 2
          simp only [List.cons_append, List.nil_append, List.length_append, List.length_cons, List.length_nil]
          congr 2; omega
    · rw [if_neg hc, List.filter_cons, if_neg hc]; exact ih acc hacc

/-- **C114**: searching by a part of the name gives, for every order in which the directory is visited, the files whose
names hold that part: all of them when the number asked is zero, and the first `num` of them otherwise. -/
theorem C114_find_files (part : Bytes) (num : U64) (order : List (Bytes × Option Nat)) (hsmall : 0 ≤ num.toInt) :
    ∃ ms : List (Bytes × Option Nat), ms.Sublist order ∧
      (∀ e, e ∈ ms ↔ e ∈ order ∧ ∃ a b, e.1 = a ++ part ++ b) ∧
      findFiles part num order [] = (if num = 0 then ms.map fun e => Iface.ptr e.2
        else (ms.map fun e => Iface.ptr e.2).take num.toNat) := by
  refine ⟨order.filter fun e => contains e.1 part, List.filter_sublist, ?_, ?_⟩
  · intro e; rw [List.mem_filter, contains_iff]
  · rw [findFiles_eq part num order [] (by simp; omega)]
    by_cases h0 : num = 0
    · subst h0; simp
    · have : num.toInt ≠ 0 := fun e => h0 (BitVec.eq_of_toInt_eq (by simpa using e))
      rw [if_neg h0, if_neg (by omega)]
      have h2 : num.toInt.toNat = num.toNat := by
        rw [BitVec.toInt_eq_toNat_of_lt]
        · simp
        · have := BitVec.toInt_eq_toNat_cond num
          split at this
          · assumption
          · have := num.isLt; omega
      simp [h2]

/-- **C114**: searching for one file by a part of its name answers with the nil interface exactly when no name holds that
part, and otherwise with a file whose name holds it, for every order. -/
theorem C114_find_file (part : Bytes) (order : List (Bytes × Option Nat)) :
    (findFile part order = .nil ↔ ∀ e ∈ order, ¬ ∃ a b, e.1 = a ++ part ++ b) ∧
    (∀ p, findFile part order = .ptr p → ∃ e ∈ order, e.2 = p ∧ ∃ a b, e.1 = a ++ part ++ b) := by
  induction order with
  | nil => simp [findFile]
  | cons e t ih =>
    obtain ⟨k, f⟩ := e
    unfold findFile
    by_cases hc : contains k part = true
    · rw [if_pos hc]
      have := (contains_iff k part).1 hc
      constructor
      · simp only [reduceCtorEq, false_iff]
        exact fun h => h (k, f) (by simp) this
      · intro p hp
        simp only [Iface.ptr.injEq] at hp
        exact ⟨(k, f), by simp, hp, this⟩
    · rw [if_neg hc]
      have hn : ¬ ∃ a b, k = a ++ part ++ b := fun h => hc ((contains_iff k part).2 h)
      constructor
      · rw [ih.1]
        constructor
        · intro h e he
          rcases List.mem_cons.1 he with rfl | he
          · exact hn
          · exact h e he
        · exact fun h e he => h e (List.mem_cons_of_mem _ he)
      · intro p hp
        obtain ⟨e, he, h⟩ := ih.2 p hp
        exact ⟨e, List.mem_cons_of_mem _ he, h⟩

example : filesOf ⟨zeroURI, none, [], [(bs "b", some 1), (bs "a", some 2), (bs "ab", none)]⟩ 0 1 =
    [.ptr (some 2), .ptr none, .ptr (some 1)] := by decide +kernel
example : findFiles (bs "a") 1 [(bs "b", some 1), (bs "xa", some 2), (bs "ab", none)] [] = [.ptr (some 2)] ∧
    findFiles (bs "a") 0 [(bs "b", some 1), (bs "xa", some 2), (bs "ab", none)] [] = [.ptr (some 2), .ptr none] ∧
    findFile (bs "q") [(bs "b", some 1)] = .nil := by decide +kernel

/-! ## C115: the content of a file object -/

theorem deref_some {w : World} {i : Nat} {n : FileNode} (h : w.files[i]? = some n) : deref w (some i) = some n := h

theorem getElem?_setFile {w : World} {i : Nat} {n m : FileNode} (h : w.files[i]? = some n) (j : Nat) :
    (setFile w i m).files[j]? = if j = i then some m else w.files[j]? := by
  obtain ⟨hi, _⟩ := List.getElem?_eq_some_iff.1 h
  unfold setFile
  rw [List.getElem?_set]
  by_cases hj : i = j
  · subst hj; simp [hi]
  · rw [if_neg hj, if_neg (Ne.symm hj)]

/-- **C115**: content stored in a file object is what every way of reading it gives, and no other file changes. -/
theorem C115_content_round_trip (o : Oracle) (w : World) (i : Nat) (n : FileNode) (h : w.files[i]? = some n) (data pre : Bytes) :
    ∃ w', unmarshal w (some i) data = some w' ∧ marshal o w' (some i) = some (w', data) ∧
      writeTo w' (some i) = some data ∧ len w' (some i) = some data.length ∧
      marshalTo w' (some i) pre = some (pre ++ data) ∧ (∀ j, j ≠ i → w'.files[j]? = w.files[j]?) ∧
      w'.calls = w.calls ∧ w'.dirs = w.dirs := by
  refine ⟨setFile w i { n with data := some data }, by simp [unmarshal, deref_some h], ?_⟩
  have hg := getElem?_setFile h (m := { n with data := some data })
  have hi := hg i
  rw [if_pos rfl] at hi
  refine ⟨?_, ?_, ?_, ?_, ?_, rfl, rfl⟩
  · simp [marshal, deref_some hi]
  · simp [writeTo, deref_some hi]
  · simp [len, deref_some hi]
  · simp [marshalTo, deref_some hi]
  · intro j hj; rw [hg j, if_neg hj]

/-- **C220** (partial: only for a file whose content was set): appending and prepending put the bytes behind and before the
content.
Missing: files not yet read (refuted: `C220_append_lost_violated`). -/
theorem C220_append_prepend_partial (w : World) (i : Nat) (n : FileNode) (h : w.files[i]? = some n) (d data : Bytes)
    (hd : n.data = some d) :
    (append w (some i) data).bind (fun w' => writeTo w' (some i)) = some (d ++ data) ∧
    (prepend w (some i) data).bind (fun w' => writeTo w' (some i)) = some (data ++ d) := by
  constructor
  · have hg := getElem?_setFile h (m := { n with data := some (d ++ data) }) i
    rw [if_pos rfl] at hg
    simp only [append, deref_some h, hd, Option.bind_some, writeTo, deref_some hg, Option.map_some, Option.getD_some]
  · have hg := getElem?_setFile h (m := { n with data := some (data ++ d) }) i
    rw [if_pos rfl] at hg
    simp only [prepend, deref_some h, hd, Option.bind_some, writeTo, deref_some hg, Option.map_some, Option.getD_some]

/-- C220 violated: bytes appended or prepended to a file are part of it. Here, for a file whose content is still on the disk,
what is prepended is dropped, and what is appended goes to the file with the empty name. -/
theorem C220_append_lost_violated (w : World) (i : Nat) (n : FileNode) (h : w.files[i]? = some n) (data : Bytes)
    (hd : n.data = none) :
    prepend w (some i) data = some w ∧
    append w (some i) data = some { w with calls := w.calls ++ [.appendFile [] data] } := by
  constructor
  · simp only [prepend, deref_some h, hd]
  · simp only [append, deref_some h, hd]

/-- **C220** (partial: the path is not the one of the file, see `C220_save_path_violated`): saving writes the content in one
call, only when content was set, and changes no object.
Missing: the right path (refuted: `C220_save_path_violated`). -/
theorem C220_save_once_partial (w : World) (i : Nat) (n : FileNode) (h : w.files[i]? = some n) :
    save w (some i) = some { w with calls := w.calls ++ (match n.data with
      | none => []
      | some d => [.writeFile n.uri.path d]) } := by
  unfold save
  rw [deref_some h]
  cases hd : n.data <;> simp [hd]

/-- C220 violated: saving a file writes to the path of that file. Here a file made by its name is written to the empty path,
and a file made by a longer path is written to its directory: the name is never part of the path written, nor of the path
read. -/
theorem C220_save_path_violated (o : Oracle) (w : World) (i : Nat) (f n : FileNode) (path d : Bytes)
    (hn : n = fileInit f path) (h : w.files[i]? = some { n with data := some d })  :
    (∃ p, save w (some i) = some { w with calls := w.calls ++ [.writeFile p d] } ∧
      (p = [] ∨ ∃ q, p = q ++ [ch '/']) ∧ (ch '/' ∉ path → p = [])) ∧
    (∀ w', w'.files[i]? = some { n with data := none } → ∃ p,
      (marshal o w' (some i)).map (·.1.calls) = some (w'.calls ++ [.readFile p]) ∧
      (p = [] ∨ ∃ q, p = q ++ [ch '/']) ∧ (ch '/' ∉ path → p = [])) := by
  have hpath : n.uri.path = (f.uri.init path).path := by rw [hn]; rfl
  have key : (n.uri.path = [] ∨ ∃ q, n.uri.path = q ++ [ch '/']) ∧ (ch '/' ∉ path → n.uri.path = []) := by
    rw [hpath]
    obtain ⟨h1, _, h3⟩ := C84_split f.uri path
    refine ⟨h3, ?_⟩
    intro hno
    rcases h3 with h3 | ⟨q, h3⟩
    · exact h3
    · exfalso; apply hno; rw [← h1, h3]; simp
  constructor
  · refine ⟨n.uri.path, ?_, key⟩
    have := C220_save_once_partial w i _ h
    simpa using this
  · intro w' h'
    refine ⟨n.uri.path, ?_, key⟩
    simp [marshal, deref_some h']

/-- **C115**: media that is already compressed is left alone; gzip replaces the content by its compressed form. -/
theorem C115_compress (gz : Bytes → Bytes) (gzipName : Bytes) (w : World) (i : Nat) (n : FileNode) (h : w.files[i]? = some n)
    (ct : Bytes) :
    (n.uri.ext ∈ noCompress → compress gz gzipName w (some i) ct = some w) ∧
    (n.uri.ext ∉ noCompress → ∃ w', compress gz gzipName w (some i) gzipName = some w' ∧
      w'.files[i]? = some { n with compressType := gzipName, data := some (gz (n.data.getD [])) } ∧
      ∀ j, j ≠ i → w'.files[j]? = w.files[j]?) := by
  constructor
  · intro he; simp [compress, deref_some h, he]
  · intro he
    refine ⟨setFile w i { n with compressType := gzipName, data := some (gz (n.data.getD [])) }, ?_, ?_, ?_⟩
    · simp [compress, deref_some h, he]
    · rw [getElem?_setFile h, if_pos rfl]
    · intro j hj; rw [getElem?_setFile h, if_neg hj]

/-- C220 violated: the compress type of a file says how its content is compressed. Here asking for any other type than gzip
records that type and leaves the content as it was. -/
theorem C220_compress_type_violated (gz : Bytes → Bytes) (gzipName : Bytes) (w : World) (i : Nat) (n : FileNode)
    (h : w.files[i]? = some n) (ct : Bytes) (hct : ct ≠ gzipName) (he : n.uri.ext ∉ noCompress) :
    ∃ w', compress gz gzipName w (some i) ct = some w' ∧ w'.files[i]? = some { n with compressType := ct } := by
  refine ⟨setFile w i { n with compressType := ct }, by simp [compress, deref_some h, he, hct], ?_⟩
  rw [getElem?_setFile h, if_pos rfl]

/-- **C115**, the part that holds of readers: content replaced from a reader that gives any byte at all, or that does not write itself,
is what every way of reading it gives, nothing is asked of the disk, and no other file changes. Missing: a reader that writes itself and
has nothing to give. -/
theorem C115_read_from_partial (o : Oracle) (w : World) (i : Nat) (n : FileNode) (h : w.files[i]? = some n) (plain : Bool) (got pre : Bytes)
    (hg : got ≠ [] ∨ plain = true) :
    ∃ w', readFrom w (some i) plain got = some w' ∧ marshal o w' (some i) = some (w', got) ∧
      marshalTo w' (some i) pre = some (pre ++ got) ∧ writeTo w' (some i) = some got ∧ len w' (some i) = some got.length ∧
      w'.calls = w.calls ∧ ∀ j, j ≠ i → w'.files[j]? = w.files[j]? := by
  have hd : (if got = [] ∧ plain = false then none else some got) = some got := by
    rw [if_neg]
    rintro ⟨h1, h2⟩
    rcases hg with h | h
    · exact h h1
    · simp [h] at h2
  have hs := fun j => getElem?_setFile h (m := { n with data := some got }) j
  have hi := hs i
  rw [if_pos rfl] at hi
  refine ⟨setFile w i { n with data := some got }, ?_, ?_, ?_, ?_, ?_, rfl, ?_⟩
  · simp only [readFrom, deref_some h, hd]
  · simp only [marshal, deref_some hi, Option.map_some]
  · simp only [marshalTo, deref_some hi, Option.map_some, Option.getD_some]
  · simp only [writeTo, deref_some hi, Option.map_some, Option.getD_some]
  · simp only [len, deref_some hi, Option.map_some, Option.getD_some]
  · intro j hj; rw [hs j, if_neg hj]

/-- **C115** violated: a file whose content was replaced from a reader is what the reader gave. From a reader that writes itself and is at
its end (as the readers of texts and byte slices of the standard library do), the content becomes unset instead of empty: reading it gives
what the disk holds under its path, whatever that is, and saving it writes nothing, so that the old content stays. -/
theorem C115_empty_reader_violated (o : Oracle) (w : World) (i : Nat) (n : FileNode) (h : w.files[i]? = some n) :
    ∃ w', readFrom w (some i) false [] = some w' ∧
      (∃ w'', marshal o w' (some i) = some (w'', o.readFile w.calls n.uri.path)) ∧ save w' (some i) = some w' := by
  have hi := getElem?_setFile h (m := { n with data := none }) i
  rw [if_pos rfl] at hi
  refine ⟨setFile w i { n with data := none }, ?_, ?_, ?_⟩
  · simp [readFrom, deref_some h]
  · exact ⟨_, by simp only [marshal, deref_some hi, Option.map_some]; rfl⟩
  · simp only [save, deref_some hi, Option.map_some]

/-- **C115**: replacing text in a file gives the standard library's replacement of the old text by the new one in its content, and no
other file changes. -/
theorem C115_replace (repl : Option Bytes → Bytes → Bytes → Int → Option Bytes) (w : World) (i : Nat) (n : FileNode)
    (h : w.files[i]? = some n) (old new : Bytes) (k : Int) :
    ∃ w', replace repl w (some i) old new k = some w' ∧ writeTo w' (some i) = some ((repl n.data old new k).getD []) ∧
      ∀ j, j ≠ i → w'.files[j]? = w.files[j]? := by
  have hg := fun j => getElem?_setFile h (m := { n with data := repl n.data old new k }) j
  refine ⟨setFile w i { n with data := repl n.data old new k }, by simp only [replace, deref_some h], ?_, ?_⟩
  · have := hg i
    rw [if_pos rfl] at this
    simp only [writeTo, deref_some this, Option.map_some]
  · intro j hj
    have := hg j
    rwa [if_neg hj] at this

theorem lookup_mapSet (m : List (Bytes × Option Nat)) (k : Bytes) (v : Option Nat) (k' : Bytes) :
    lookup (mapSet m k v) k' = if k' = k then v else lookup m k' := by
  unfold mapSet
  split
  · rename_i hh
    have hk := (has_iff m k).1 hh
    clear hh
    induction m with
    | nil => simp at hk
    | cons e t ih =>
      obtain ⟨a, b⟩ := e
      rw [List.map_cons]
      by_cases ha : a = k
      · subst ha
        simp only [beq_self_eq_true, if_true]
        rw [lookup_cons, lookup_cons]
        by_cases hk' : a = k'
        · simp [hk']
        · rw [if_neg hk', if_neg hk', if_neg (Ne.symm hk')]
          by_cases hm : a ∈ t.map (·.1)
          · have := ih hm; rw [if_neg (Ne.symm hk')] at this; exact this
          · congr 1
            calc t.map (fun e : Bytes × Option Nat => if (e.1 == a) = true then (a, v) else e) = t.map id := by
                  apply List.map_congr_left
                  intro e he
                  have : e.1 ≠ a := fun h => hm (List.mem_map.2 ⟨e, he, h⟩)
                  simp [this]
              _ = t := List.map_id _
      · have hb : (a == k) = false := by simpa using ha
        simp only [hb, Bool.false_eq_true, if_false]
        rw [lookup_cons, lookup_cons]
        have hm : k ∈ t.map (·.1) := by
          rcases List.mem_cons.1 hk with e | h
          · exact absurd e.symm ha
          · exact h
        rw [ih hm]
        by_cases hk' : a = k'
        · subst hk'; simp [ha]
        · simp [hk']
  · rename_i hh
    have hk : k ∉ m.map (·.1) := fun e => hh ((has_iff m k).2 e)
    clear hh
    induction m with
    | nil => rw [List.nil_append, lookup_cons, lookup_nil]; by_cases e : k = k' <;> simp [e, eq_comm]
    | cons e t ih =>
      obtain ⟨a, b⟩ := e
      simp only [List.map_cons, List.mem_cons, not_or] at hk
      rw [List.cons_append, lookup_cons, lookup_cons, ih hk.2]
      by_cases hk' : a = k'
      · subst hk'; simp [Ne.symm hk.1]
      · simp [hk']

theorem lookup_mapDelete (m : List (Bytes × Option Nat)) (k k' : Bytes) :
    lookup (mapDelete m k) k' = if k' = k then none else lookup m k' := by
  unfold mapDelete
  induction m with
  | nil => simp [lookup_nil]
  | cons e t ih =>
    obtain ⟨a, b⟩ := e
    rw [List.filter_cons]
    by_cases ha : a = k
    · subst ha
      simp only [bne_self_eq_false, Bool.false_eq_true, if_false]
      rw [ih, lookup_cons]
      by_cases hk : k' = a
      · simp [hk]
      · rw [if_neg hk, if_neg hk, if_neg (Ne.symm hk)]
    · have hb : (a != k) = true := by simpa using ha
      simp only [hb, if_true]
      rw [lookup_cons, lookup_cons, ih]
      by_cases hk : a = k'
      · subst hk; simp [ha]
      · simp [hk]

/-- **C115**: renaming a file moves it in its directory: the new name leads to it, the old name to nothing, every other name
to what it did, and the name and extension of the file follow. A file that had the new name is no longer reachable. -/
theorem C115_rename (w : World) (i p : Nat) (n : FileNode) (pn : DirNode) (h : w.files[i]? = some n) (hp : n.parent = some p)
    (hd : w.dirs[p]? = some pn) (newName : Bytes) :
    ∃ w' pn', rename w (some i) newName = some w' ∧ w'.dirs[p]? = some pn' ∧
      lookup pn'.files newName = some i ∧
      (n.uri.name ≠ newName → lookup pn'.files n.uri.name = none) ∧
      (∀ k, k ≠ newName → k ≠ n.uri.name → lookup pn'.files k = lookup pn.files k) ∧
      w'.files[i]? = some { n with uri := { n.uri with name := newName, ext := extension newName } } ∧
      pn'.dirs = pn.dirs := by
  refine ⟨setFile (setFiles w p (mapSet (mapDelete pn.files n.uri.name) newName (some i))) i
    { n with uri := n.uri.rename newName }, { pn with files := mapSet (mapDelete pn.files n.uri.name) newName (some i) },
    ?_, ?_, ?_, ?_, ?_, ?_, rfl⟩
  · simp [rename, deref_some h, hp, hd]
  · simp only [setFile, setFiles, List.getElem?_modify, hd]; simp
  · simp only [lookup_mapSet]; simp
  · intro hne; simp only [lookup_mapSet, lookup_mapDelete]; simp [hne]
  · intro k h1 h2; simp only [lookup_mapSet, lookup_mapDelete]; simp [h1, h2]
  · rw [getElem?_setFile (w := setFiles w p _) h, if_pos rfl]; rfl

/-- **C220** (partial: only for a file found by `fileByPath`, and only when it is registered under its own name in its
parent): deleting asks the operating system to remove the path, and removes the name from the parent directory.
Missing: files in other directories, which are not found (refuted: `C262_nested_file_violated`), and directories (refuted: `C112_delete_panics_violated`). -/
theorem C220_delete_file_partial (w : World) (d i p : Nat) (path : Bytes) (n : FileNode) (pn : DirNode)
    (hdir : isPathDirectory path = some false) (hf : fileByPath w d path = some (some i)) (h : w.files[i]? = some n)
    (hp : n.parent = some p) (hd : w.dirs[p]? = some pn) :
    ∃ w' pn', (delete w d path).2 = some w' ∧ w'.calls = w.calls ++ [.remove path] ∧ w'.dirs[p]? = some pn' ∧
      lookup pn'.files n.uri.name = none ∧ ∀ k, k ≠ n.uri.name → lookup pn'.files k = lookup pn.files k := by
  have hf' : fileByPath { w with calls := w.calls ++ [.remove path] } d path = some (some i) := by
    have hb : ∀ ps d, byParts { w with calls := w.calls ++ [.remove path] } d ps = byParts w d ps := by
      intro ps
      induction ps with
      | nil => intro d; rfl
      | cons q qs ih =>
        intro d
        simp only [byParts, ih]
    unfold fileByPath at hf ⊢
    simp only [hb]
    exact hf
  refine ⟨setFiles { w with calls := w.calls ++ [.remove path] } p (mapDelete pn.files n.uri.name),
    { pn with files := mapDelete pn.files n.uri.name }, ?_, rfl, ?_, ?_, ?_⟩
  · unfold delete
    simp only [hdir, hf', h, hp, hd]
  · simp only [setFiles, List.getElem?_modify, hd]; simp
  · rw [lookup_mapDelete, if_pos rfl]
  · intro k hk; rw [lookup_mapDelete, if_neg hk]

example : (unmarshal exWorld (some 1) (bs "hi")).bind (fun w => (append w (some 1) (bs "!")).bind fun w => writeTo w (some 1)) =
    some (bs "hi!") := by decide +kernel
example : ((delete exWorld 0 (bs "f")).2.map fun w => w.calls) = some [.remove (bs "f")] := by decide +kernel
example : ((rename exWorld (some 1) (bs "g.js")).bind fun w => w.files[1]?.map fun n => (n.uri.name, n.uri.ext)) =
    some (bs "g.js", bs "js") := by decide +kernel
example : ((unmarshal exWorld (some 1) (bs "hi")).bind fun w => save w (some 1)).map (·.calls) =
    some [.writeFile (bs "/a/b/") (bs "hi")] := by decide +kernel

example := C114_listing_sorted ⟨zeroURI, none, [], [(bs "b", some 1), (bs "a", some 2), (bs "ab", none)]⟩ (by decide) 0 1
example := C114_find_files (bs "a") 1 [(bs "b", some 1), (bs "xa", some 2), (bs "ab", none)] (by decide)

/-- Two files, one with a content, the other with an extension that is never compressed. -/
def exFiles : World :=
  ⟨[⟨zeroURI, none, [], [(bs "f.js", some 0), (bs "g.png", some 1)]⟩],
   [⟨⟨bs "/", bs "f.js", bs "js"⟩, some 0, bs "js", [], some (bs "hi")⟩, ⟨⟨bs "/", bs "g.png", bs "png"⟩, some 0, bs "png", [], none⟩], []⟩

example := C115_content_round_trip exOracle exFiles 0 _ rfl (bs "data") (bs "pre")
example := C220_append_prepend_partial exFiles 0 _ rfl (bs "hi") (bs "!") rfl
example := C220_append_lost_violated exFiles 1 _ rfl (bs "!") rfl
example := C220_save_once_partial exFiles 0 _ rfl
example := C220_save_path_violated exOracle
  ⟨[], [{ fileInit ⟨zeroURI, none, [], [], none⟩ (bs "/a/f.js") with data := some (bs "hi") }], []⟩ 0 ⟨zeroURI, none, [], [], none⟩ _
  (bs "/a/f.js") (bs "hi") rfl rfl
example := (C115_compress List.reverse (bs "gzip") exFiles 1 _ rfl (bs "gzip")).1 (by decide)
example := (C115_compress List.reverse (bs "gzip") exFiles 0 _ rfl (bs "gzip")).2 (by decide)
example := C220_compress_type_violated List.reverse (bs "gzip") exFiles 0 _ rfl (bs "br") (by decide) (by decide)
example := C115_read_from_partial exOracle exFiles 0 _ rfl false (bs "got") (bs "pre") (.inl (by decide))
example := C115_read_from_partial exOracle exFiles 0 _ rfl true [] (bs "pre") (.inr rfl)
example := C115_empty_reader_violated exOracle exFiles 0 _ rfl
example := C115_replace (fun d _ new _ => d.map (· ++ new)) exFiles 0 _ rfl (bs "h") (bs "j") (-1)
example := C115_rename exFiles 0 0 _ _ rfl rfl rfl (bs "h.js")

end Memar.Os
