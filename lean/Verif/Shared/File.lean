import Verif.Shared.Buffer
import Verif.Os.Replace

/-!
# The data of files in shared memory (`os/default/file.go`), C285

`Verif.Os.Model` gives every file bytes of its own. Here a file holds a slice of the memory it shares with its users and with other files.
Only the data of files that have some in memory is modelled here: names, types and the storage are in `Verif.Os.Model`.
-/

namespace Memar.Shared
open Memar.Convert

/-- The memory and the field `data` of every file (os/default/file.go:18-24); nil is `none`. -/
structure Files where
  heap : Heap
  data : Nat → Option SliceHeader

namespace Files

/-- `f.data = s` -/
def setData (w : Files) (h : Heap) (f : Nat) (s : Option SliceHeader) : Files := ⟨h, fun g => if g = f then s else w.data g⟩

/-- os/default/file.go:197-201 `Unmarshal`: the file keeps the caller's slice. -/
def unmarshal (w : Files) (f : Nat) (s : SliceHeader) : Files := w.setData w.heap f (some s)

/-- os/default/file.go:182-188 `Marshal`: the file's own slice; what the storage gives when there is none is left out. -/
def marshal (w : Files) (f : Nat) : Option SliceHeader := w.data f

/-- os/default/file.go:135-138 `Append`; a file with no data in memory is left as it is here (the storage is in `Verif.Os.Model`). -/
def append (extra : Nat → Nat → Nat) (w : Files) (f : Nat) (s : SliceHeader) : Files :=
  match w.data f with
  | none => w
  | some d => w.setData (Shared.append extra w.heap (some d) (bytesOf w.heap s)).1 f
      (Shared.append extra w.heap (some d) (bytesOf w.heap s)).2

/-- os/default/file.go:126-132 `Prepend`: `append(data, f.data...)`, into the room of the caller's slice when there is enough. -/
def prepend (extra : Nat → Nat → Nat) (w : Files) (f : Nat) (s : SliceHeader) : Files :=
  match w.data f with
  | none => w
  | some d => w.setData (Shared.append extra w.heap (some s) (bytesOf w.heap d)).1 f
      (Shared.append extra w.heap (some s) (bytesOf w.heap d)).2

/-- os/default/file.go:191-194 `MarshalTo`: the caller's slice with the data added. -/
def marshalTo (extra : Nat → Nat → Nat) (w : Files) (f : Nat) (s : SliceHeader) : Files × Option SliceHeader :=
  (⟨(Shared.append extra w.heap (some s) (shown w.heap (w.data f))).1, w.data⟩,
    (Shared.append extra w.heap (some s) (shown w.heap (w.data f))).2)

/-- os/default/file.go:81-83 `Replace`, 62-78 `Compress` and 211-216 `ReadFrom`: a new array with `p` and `n` bytes of room. The standard
library answers arrays of its own (`bytes.Replace` "returns a copy"); when it answers nil is in `Verif.Os.Model`. -/
def renew (w : Files) (f : Nat) (p : Bytes) (n : Nat) : Files :=
  w.setData (fresh w.heap p n).1 f (some (fresh w.heap p n).2)

/-- `copy(f.data[i:], src)` for a slice in memory -/
def copyAt (h : Heap) (s : SliceHeader) (i : Int) (src : Bytes) : Option Heap :=
  if i < 0 ∨ s.len < i then none else some (put h (s.data + i.toNat) (src.take (s.len - i.toNat)))

/-- `f.data[i:]` -/
def fromAt (h : Heap) (s : SliceHeader) (i : Int) : Option Bytes :=
  if i < 0 ∨ s.len < i then none else some ((bytesOf h s).drop i.toNat)

/-- os/default/file.go:101-108: the length is enlarged in place when the capacity allows, else by appending zeros. -/
def enlarge (extra : Nat → Nat → Nat) (h : Heap) (s : SliceHeader) (n : Int) : Heap × SliceHeader :=
  if 0 < n then
    if (s.cap : Int) - s.len < n then
      ((fresh h (bytesOf h s ++ List.replicate n.toNat 0#8) (extra s.cap (s.len + n.toNat))).1,
        (fresh h (bytesOf h s ++ List.replicate n.toNat 0#8) (extra s.cap (s.len + n.toNat))).2)
    else (h, ⟨s.data, s.len + n.toNat, s.cap⟩)
  else (h, s)

/-- os/default/file.go:114-117 -/
def shorten (s : SliceHeader) (n : Int) : Option SliceHeader :=
  if n < 0 then (if s.len + n < 0 then none else some ⟨s.data, (s.len + n).toNat, s.cap⟩) else some s

/-- os/default/file.go:99-117: one round of the loop, with the positions already moved. -/
def replaceOne (extra : Nat → Nat → Nat) (h : Heap) (s : SliceHeader) (d : Bytes) (start stop : Int) : Option (Heap × SliceHeader) :=
  let added : Int := d.length - (stop - start)
  let r := enlarge extra h s added
  (fromAt r.1 r.2 stop).bind fun tail =>
  (copyAt r.1 r.2 (stop + added) tail).bind fun h =>
  (copyAt h r.2 start d).bind fun h =>
  (shorten r.2 added).map fun s => (h, s)

/-- os/default/file.go:93-119 `ReplaceLocation`; `total` is `totalAddedSize` -/
def replaceLoop (extra : Nat → Nat → Nat) : Int → Heap → SliceHeader → List Os.ReplaceReq → Option (Heap × SliceHeader)
  | _, h, s, [] => some (h, s)
  | total, h, s, r :: rs =>
    (replaceOne extra h s r.data (r.start + total) (r.stop + total)).bind fun w =>
      replaceLoop extra (total + (r.data.length - (r.stop - r.start))) w.1 w.2 rs

/-- os/default/file.go:93-119 `ReplaceLocation` of a file that has data in memory -/
def replaceLocation (extra : Nat → Nat → Nat) (w : Files) (f : Nat) (rs : List Os.ReplaceReq) : Option Files :=
  match w.data f with
  | none => none
  | some s => (replaceLoop extra 0 w.heap s rs).map fun r => w.setData r.1 f (some r.2)

end Files

/-! ## One round of `ReplaceLocation` -/

open Files

theorem copyAt_read (h : Heap) (s : SliceHeader) (i : Int) (src : Bytes) :
    (copyAt h s i src).map (fun g => bytesOf g s) = Os.copyAt (bytesOf h s) i src := by
  unfold copyAt Os.copyAt
  simp only [show ((bytesOf h s).length : Int) = s.len by simp [bytesOf]]
  split
  · rfl
  · next hc =>
    simp only [Option.map_some]
    congr 1
    unfold bytesOf
    have hl : (src.take (s.len - i.toNat)).length ≤ s.len - i.toNat := by simp; omega
    rw [read_put_inside _ _ _ _ _ (by omega), read_take _ _ _ _ (by omega), read_drop _ _ _ _ (by omega), List.append_assoc]
    congr 1
    unfold goCopy
    rw [read_length]
    congr 1
    by_cases hs : src.length ≤ s.len - i.toNat
    · rw [List.take_of_length_le hs, read_drop _ _ _ _ (by omega)]
    · rw [List.drop_of_length_le (by simp; omega), show s.len - i.toNat - (src.take (s.len - i.toNat)).length = 0 by simp; omega]
      simp [read]

theorem copyAt_frame (h g : Heap) (s : SliceHeader) (i : Int) (src : Bytes) (hg : copyAt h s i src = some g) (hl : s.len ≤ s.cap) :
    g.next = h.next ∧ ∀ x, ¬ (s.data ≤ x ∧ x < s.data + s.cap) → g.cells x = h.cells x := by
  unfold copyAt at hg
  split at hg
  · cases hg
  · cases hg
    refine ⟨rfl, fun x hx => ?_⟩
    rw [put_cells, if_neg]
    simp only [List.length_take]
    omega

theorem enlarge_read (extra : Nat → Nat → Nat) (h : Heap) (s : SliceHeader) (hs : Held h s) (n : Int) :
    ∃ junk : Nat → Byte, bytesOf (enlarge extra h s n).1 (enlarge extra h s n).2 = Os.enlarge junk (bytesOf h s) n := by
  unfold enlarge Os.enlarge
  by_cases hn : 0 < n
  · rw [if_pos hn]
    by_cases hc : (s.cap : Int) - s.len < n
    · refine ⟨fun _ => 0#8, ?_⟩
      rw [if_pos hc, if_pos hn, bytesOf_fresh]
      congr 1
      apply List.ext_getElem?
      intro i
      simp [List.getElem?_replicate]
      split <;> simp_all
    · refine ⟨fun k => h.cells (s.data + s.len + k), ?_⟩
      rw [if_neg hc, if_pos hn]
      simp only [bytesOf]
      rw [read_add]
      rfl
  · exact ⟨fun _ => 0#8, by rw [if_neg hn, if_neg hn]⟩

/-- Addresses a slice's array may have taken: its own array, or memory that was not in use. -/
def Within (h : Heap) (s : SliceHeader) (x : Nat) : Prop := (s.data ≤ x ∧ x < s.data + s.cap) ∨ h.next ≤ x

theorem enlarge_frame (extra : Nat → Nat → Nat) (h : Heap) (s : SliceHeader) (hs : Held h s) (n : Int) :
    Held (enlarge extra h s n).1 (enlarge extra h s n).2 ∧ h.next ≤ (enlarge extra h s n).1.next ∧
    (∀ x, ¬ Within h s x → (enlarge extra h s n).1.cells x = h.cells x) ∧
    (∀ x, Within (enlarge extra h s n).1 (enlarge extra h s n).2 x → Within h s x) := by
  unfold enlarge
  by_cases hn : 0 < n
  · rw [if_pos hn]
    by_cases hc : (s.cap : Int) - s.len < n
    · rw [if_pos hc]
      refine ⟨held_fresh _ _ _, by simp [fresh], fun x hx => ?_, fun x hx => ?_⟩
      · unfold Within at hx
        simp only [fresh]
        rw [put_cells, if_neg (by omega)]
      · simp only [Within, fresh] at hx ⊢; right; omega
    · rw [if_neg hc]
      exact ⟨⟨by simp only; omega, hs.2⟩, Nat.le_refl _, fun _ _ => rfl, fun x hx => hx⟩
  · rw [if_neg hn]
    exact ⟨hs, Nat.le_refl _, fun _ _ => rfl, fun x hx => hx⟩

theorem replaceOne_read (extra : Nat → Nat → Nat) (h : Heap) (s : SliceHeader) (hs : Held h s) (d : Bytes) (start stop : Int) :
    ∃ junk : Nat → Byte, (replaceOne extra h s d start stop).map (fun w => bytesOf w.1 w.2) = Os.replaceOne junk (bytesOf h s) d start stop := by
  obtain ⟨junk, hj⟩ := enlarge_read extra h s hs (d.length - (stop - start))
  refine ⟨junk, ?_⟩
  unfold replaceOne Os.replaceOne
  simp only []
  rw [← hj]
  generalize enlarge extra h s (d.length - (stop - start)) = r
  obtain ⟨h1, s1⟩ := r
  simp only []
  have e1 : fromAt h1 s1 stop = Os.fromAt (bytesOf h1 s1) stop := by
    unfold fromAt Os.fromAt; simp [bytesOf]
  rw [e1]
  cases Os.fromAt (bytesOf h1 s1) stop with
  | none => rfl
  | some tail =>
    simp only [Option.bind_some]
    have c1 := copyAt_read h1 s1 (stop + (d.length - (stop - start))) tail
    cases e2 : copyAt h1 s1 (stop + (d.length - (stop - start))) tail with
    | none => rw [e2] at c1; simp only [Option.map_none] at c1; rw [← c1]; rfl
    | some h2 =>
      rw [e2] at c1; simp only [Option.map_some] at c1; rw [← c1]
      simp only [Option.bind_some]
      have c2 := copyAt_read h2 s1 start d
      cases e3 : copyAt h2 s1 start d with
      | none => rw [e3] at c2; simp only [Option.map_none] at c2; rw [← c2]; rfl
      | some h3 =>
        rw [e3] at c2; simp only [Option.map_some] at c2; rw [← c2]
        simp only [Option.bind_some]
        unfold shorten Os.shorten
        simp only [show ((bytesOf h3 s1).length : Int) = s1.len by simp [bytesOf]]
        split
        · split
          · rfl
          · simp only [Option.map_some, bytesOf]
            rw [read_take _ _ _ _ (by omega)]
        · rfl

theorem replaceOne_frame (extra : Nat → Nat → Nat) (h : Heap) (s : SliceHeader) (hs : Held h s) (d : Bytes) (start stop : Int)
    (w : Heap × SliceHeader) (hw : replaceOne extra h s d start stop = some w) :
    Held w.1 w.2 ∧ h.next ≤ w.1.next ∧ (∀ x, ¬ Within h s x → w.1.cells x = h.cells x) ∧ (∀ x, Within w.1 w.2 x → Within h s x) := by
  unfold replaceOne at hw
  obtain ⟨f1, f2, f3, f4⟩ := enlarge_frame extra h s hs (d.length - (stop - start))
  simp only [] at hw
  generalize enlarge extra h s (d.length - (stop - start)) = r at *
  obtain ⟨h1, s1⟩ := r
  simp only [] at *
  cases e1 : fromAt h1 s1 stop with
  | none => simp [e1] at hw
  | some tail =>
    rw [e1] at hw; simp only [Option.bind_some] at hw
    cases e2 : copyAt h1 s1 (stop + (d.length - (stop - start))) tail with
    | none => simp [e2] at hw
    | some h2 =>
      rw [e2] at hw; simp only [Option.bind_some] at hw
      cases e3 : copyAt h2 s1 start d with
      | none => simp [e3] at hw
      | some h3 =>
        rw [e3] at hw; simp only [Option.bind_some] at hw
        obtain ⟨n1, k1⟩ := copyAt_frame h1 h2 s1 _ _ e2 f1.1
        obtain ⟨n2, k2⟩ := copyAt_frame h2 h3 s1 _ _ e3 f1.1
        cases e4 : shorten s1 (d.length - (stop - start)) with
        | none => simp [e4] at hw
        | some s2 =>
          rw [e4] at hw; simp only [Option.map_some, Option.some.injEq] at hw
          subst hw
          have hs2 : s2.data = s1.data ∧ s2.cap = s1.cap ∧ s2.len ≤ s1.len := by
            unfold shorten at e4
            split at e4
            · split at e4
              · cases e4
              · cases e4; exact ⟨rfl, rfl, by simp only; omega⟩
            · cases e4; exact ⟨rfl, rfl, Nat.le_refl _⟩
          obtain ⟨g1, g2, g3⟩ := hs2
          have fl := f1.1
          have fn := f1.2
          refine ⟨⟨by simp only [g2]; omega, by simp only [g1, g2]; omega⟩, by simp only; omega, fun x hx => ?_, fun x hx => f4 x ?_⟩
          · have hx' : ¬ (s1.data ≤ x ∧ x < s1.data + s1.cap) := fun hh => hx (f4 x (Or.inl hh))
            simp only
            rw [k2 x hx', k1 x hx', f3 x hx]
          · unfold Within at hx ⊢
            simp only [g1, g2] at hx
            omega

theorem replaceLoop_frame (extra : Nat → Nat → Nat) (rs : List Os.ReplaceReq) : ∀ (total : Int) (h : Heap) (s : SliceHeader), Held h s →
    ∀ w, replaceLoop extra total h s rs = some w →
    Held w.1 w.2 ∧ h.next ≤ w.1.next ∧ (∀ x, ¬ Within h s x → w.1.cells x = h.cells x) ∧ (∀ x, Within w.1 w.2 x → Within h s x) := by
  induction rs with
  | nil => intro total h s hs w hw; cases hw; exact ⟨hs, Nat.le_refl _, fun _ _ => rfl, fun _ hx => hx⟩
  | cons r rs ih =>
    intro total h s hs w hw
    simp only [replaceLoop] at hw
    cases e : replaceOne extra h s r.data (r.start + total) (r.stop + total) with
    | none => simp [e] at hw
    | some v =>
      rw [e] at hw; simp only [Option.bind_some] at hw
      obtain ⟨a1, a2, a3, a4⟩ := replaceOne_frame extra h s hs _ _ _ v e
      obtain ⟨b1, b2, b3, b4⟩ := ih _ v.1 v.2 a1 w hw
      exact ⟨b1, by omega, fun x hx => by rw [b3 x fun hx' => hx (a4 x hx'), a3 x hx], fun x hx => a4 x (b4 x hx)⟩

theorem replaceLoop_read (extra : Nat → Nat → Nat) (rs : List Os.ReplaceReq) : ∀ (total : Int) (h : Heap) (s : SliceHeader) (i : Nat), Held h s →
    ∃ junk : Nat → Nat → Byte,
      (replaceLoop extra total h s rs).map (fun w => bytesOf w.1 w.2) = Os.replaceLoop junk i total (bytesOf h s) rs := by
  induction rs with
  | nil => intro total h s i _; exact ⟨fun _ _ => 0#8, rfl⟩
  | cons r rs ih =>
    intro total h s i hs
    obtain ⟨j1, e1⟩ := replaceOne_read extra h s hs r.data (r.start + total) (r.stop + total)
    cases e : replaceOne extra h s r.data (r.start + total) (r.stop + total) with
    | none =>
      rw [e] at e1
      refine ⟨fun _ => j1, ?_⟩
      simp only [replaceLoop, Os.replaceLoop, e, ← e1]; rfl
    | some v =>
      rw [e] at e1
      obtain ⟨a1, _⟩ := replaceOne_frame extra h s hs _ _ _ v e
      obtain ⟨j2, e2⟩ := ih (total + (r.data.length - (r.stop - r.start))) v.1 v.2 (i + 1) a1
      refine ⟨fun k => if k = i then j1 else j2 k, ?_⟩
      have hcongr : ∀ (rs : List Os.ReplaceReq) (m : Nat) (t : Int) (b : Bytes), i < m →
          Os.replaceLoop (fun k => if k = i then j1 else j2 k) m t b rs = Os.replaceLoop j2 m t b rs := by
        intro rs
        induction rs with
        | nil => intro m t b _; rfl
        | cons q qs ih2 =>
          intro m t b hm
          simp only [Os.replaceLoop]
          rw [if_neg (by omega)]
          cases Os.replaceOne (j2 m) b q.data (q.start + t) (q.stop + t) with
          | none => rfl
          | some c => exact ih2 (m + 1) _ c (by omega)
      simp only [replaceLoop, Os.replaceLoop, e, Option.bind_some, if_pos]
      rw [← e1]
      simp only [Option.map_some, Option.bind_some]
      rw [hcongr rs (i + 1) _ _ (by omega)]
      exact e2

end Memar.Shared
