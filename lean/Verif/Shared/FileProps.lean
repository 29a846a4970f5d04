import Verif.Shared.File

/-!
# Each file has contents of its own (C285)

Specification: the contents of the files are a list of bytes for every file; a call on a file changes the contents of that file and of no
other.
-/

namespace Memar.Shared
open Memar.Convert

/-- Specification: what a file contains, if it has data in memory. -/
def Spec.contents (w : Files) (f : Nat) : Option Bytes := (w.data f).map (bytesOf w.heap)

/-- A call on a file. The slice given is one the caller just made with the bytes `p` and `n` bytes of room, and uses for nothing else. -/
inductive FOp
  | unmarshal (f : Nat) (p : Bytes) (n : Nat)
  | append (f : Nat) (p : Bytes) (n : Nat)
  | prepend (f : Nat) (p : Bytes) (n : Nat)
  | marshalTo (f : Nat) (p : Bytes) (n : Nat)
  | renew (f : Nat) (p : Bytes) (n : Nat)
  | replaceLocation (f : Nat) (rs : List Os.ReplaceReq)

/-- The files after the caller made a slice. -/
def Files.make (w : Files) (p : Bytes) (n : Nat) : Files := ⟨(fresh w.heap p n).1, w.data⟩

/-- The slice the caller made. -/
def Files.made (w : Files) (p : Bytes) (n : Nat) : SliceHeader := (fresh w.heap p n).2

/-- One call; a panic is `none`. -/
def FOp.run (extra : Nat → Nat → Nat) (w : Files) : FOp → Option Files
  | .unmarshal f p n => some ((w.make p n).unmarshal f (w.made p n))
  | .append f p n => some ((w.make p n).append extra f (w.made p n))
  | .prepend f p n => some ((w.make p n).prepend extra f (w.made p n))
  | .marshalTo f p n => some ((w.make p n).marshalTo extra f (w.made p n)).1
  | .renew f p n => some (w.renew f p n)
  | .replaceLocation f rs => w.replaceLocation extra f rs

/-- Calls in turn. -/
def FOp.runs (extra : Nat → Nat → Nat) : Files → List FOp → Option Files
  | w, [] => some w
  | w, o :: os => (o.run extra w).bind fun v => FOp.runs extra v os

/-- Specification: the contents of one file changed. -/
def Spec.change (c : Nat → Option Bytes) (f : Nat) (b : Option Bytes) : Nat → Option Bytes := fun g => if g = f then b else c g

/-- Specification: a call changes the contents of its file. -/
def Spec.call (c : Nat → Option Bytes) : FOp → Nat → Option Bytes
  | .unmarshal f p _ => change c f (some p)
  | .append f p _ => change c f ((c f).map fun b => b ++ p)
  | .prepend f p _ => change c f ((c f).map fun b => p ++ b)
  | .marshalTo _ _ _ => c
  | .renew f p _ => change c f (some p)
  | .replaceLocation f rs => change c f ((c f).map fun b => Os.RSpec.replaced b 0 rs)

/-- Specification: `ReplaceLocation` is called on a file with data in memory, with places that lie in it in order. -/
def Spec.allowed (c : Nat → Option Bytes) : FOp → Prop
  | .replaceLocation f rs => ∃ b, c f = some b ∧ Os.RSpec.InOrder b.length 0 rs
  | _ => True

/-- Specification: all calls in turn are allowed. -/
def Spec.allAllowed (c : Nat → Option Bytes) : List FOp → Prop
  | [] => True
  | o :: os => Spec.allowed c o ∧ Spec.allAllowed (Spec.call c o) os

/-- Two slices have no byte of their arrays in common. -/
def Spec.apart (s t : SliceHeader) : Prop := ∀ x, ¬ ((s.data ≤ x ∧ x < s.data + s.cap) ∧ (t.data ≤ x ∧ x < t.data + t.cap))

/-- The arrays of the files are in use and apart from each other. -/
def Spec.Apart (w : Files) : Prop :=
  (∀ f s, w.data f = some s → Held w.heap s) ∧ ∀ f g s t, f ≠ g → w.data f = some s → w.data g = some t → Spec.apart s t

/-! ## Steps that keep files apart -/

/-- The file `f` gets the slice `s` in the memory `h`: the others keep their contents and stay apart, when only the array of `f` and new memory was
touched and taken. -/
theorem apart_step (w : Files) (hw : Spec.Apart w) (f : Nat) (h : Heap) (s : SliceHeader) (hs : Held h s) (hn : w.heap.next ≤ h.next)
    (hc : ∀ x, x < w.heap.next → (∀ d, w.data f = some d → ¬ (d.data ≤ x ∧ x < d.data + d.cap)) → h.cells x = w.heap.cells x)
    (hr : ∀ x, s.data ≤ x → x < s.data + s.cap → x < w.heap.next → ∃ d, w.data f = some d ∧ d.data ≤ x ∧ x < d.data + d.cap) :
    Spec.Apart (w.setData h f (some s)) ∧ Spec.contents (w.setData h f (some s)) = Spec.change (Spec.contents w) f (some (bytesOf h s)) := by
  obtain ⟨h1, h2⟩ := hw
  have old : ∀ g t, g ≠ f → w.data g = some t → Spec.apart s t := by
    intro g t hg ht x hx
    obtain ⟨⟨a, b⟩, c, d⟩ := hx
    have hh := (h1 g t ht)
    have := hh.1; have := hh.2
    obtain ⟨d', e', p, q⟩ := hr x a b (by omega)
    exact h2 f g d' t (fun e => hg e.symm) e' ht x ⟨⟨p, q⟩, c, d⟩
  refine ⟨⟨?_, ?_⟩, ?_⟩
  · intro g t e
    simp only [Files.setData] at e ⊢
    split at e
    · cases e; exact hs
    · exact held_mono _ _ _ hn (h1 g t e)
  · intro g k t u hgk e1 e2
    simp only [Files.setData] at e1 e2
    split at e1
    · next hg =>
      cases e1
      rw [if_neg (fun hk => hgk (hg.trans hk.symm))] at e2
      exact old k u (fun hk => hgk (hg.trans hk.symm)) e2
    · next hg =>
      split at e2
      · cases e2
        intro x hx
        exact old g t hg e1 x ⟨hx.2, hx.1⟩
      · exact h2 g k t u hgk e1 e2
  · funext g
    simp only [Spec.contents, Spec.change, Files.setData]
    split
    · rfl
    · next hg =>
      cases e : w.data g with
      | none => rfl
      | some t =>
        simp only [Option.map_some]
        congr 1
        have hh := h1 g t e
        refine read_congr _ _ _ _ fun k hk => hc _ (by have := hh.1; have := hh.2; omega) fun d hd hx => ?_
        exact h2 f g d t (fun e => hg e.symm) hd e _ ⟨hx, by have := hh.1; omega⟩

theorem make_apart (w : Files) (hw : Spec.Apart w) (p : Bytes) (n : Nat) :
    Spec.Apart (w.make p n) ∧ Spec.contents (w.make p n) = Spec.contents w := by
  obtain ⟨h1, h2⟩ := hw
  refine ⟨⟨fun f s e => held_mono _ _ _ (by simp [Files.make, fresh]) (h1 f s e), h2⟩, ?_⟩
  funext g
  simp only [Spec.contents, Files.make]
  cases e : w.data g with
  | none => rfl
  | some t =>
    simp only [Option.map_some]
    congr 1
    have hh := h1 g t e
    exact read_fresh_old _ _ _ _ _ (by have := hh.1; have := hh.2; omega)

theorem run_contents (extra : Nat → Nat → Nat) (w : Files) (hw : Spec.Apart w) (o : FOp) (ho : Spec.allowed (Spec.contents w) o) :
    ∃ v, o.run extra w = some v ∧ Spec.Apart v ∧ Spec.contents v = Spec.call (Spec.contents w) o := by
  have outside : ∀ x, x < w.heap.next → ∀ p n, (fresh w.heap p n).1.cells x = w.heap.cells x := by
    intro x hx p n
    have := (read_iff _ _ x 1).mp (read_fresh_old w.heap p n x 1 (by omega)) 0 (by omega)
    simpa using this
  cases o with
  | unmarshal f p n =>
    refine ⟨_, rfl, ?_⟩
    have := apart_step w hw f (fresh w.heap p n).1 (fresh w.heap p n).2 (held_fresh _ _ _) (by simp [fresh])
      (fun x hx _ => outside x hx p n) (fun x a _ c => by simp only [fresh] at a; omega)
    rw [bytesOf_fresh] at this
    exact this
  | renew f p n =>
    refine ⟨_, rfl, ?_⟩
    have := apart_step w hw f (fresh w.heap p n).1 (fresh w.heap p n).2 (held_fresh _ _ _) (by simp [fresh])
      (fun x hx _ => outside x hx p n) (fun x a _ c => by simp only [fresh] at a; omega)
    rw [bytesOf_fresh] at this
    exact this
  | append f p n =>
    refine ⟨_, rfl, ?_⟩
    obtain ⟨m1, m2⟩ := make_apart w hw p n
    have hb : bytesOf (w.make p n).heap (w.made p n) = p := bytesOf_fresh _ _ _
    simp only [Files.append, Spec.call, hb, ← m2]
    cases e : (w.make p n).data f with
    | none =>
      refine ⟨m1, ?_⟩
      funext g
      simp only [Spec.change]
      split
      · next hg => subst hg; simp [Spec.contents, e]
      · rfl
    | some d =>
      have hd := m1.1 f d e
      have hsome : ∃ s, (append extra (w.make p n).heap (some d) p).2 = some s := by
        simp only [append]; split <;> exact ⟨_, rfl⟩
      obtain ⟨s, es⟩ := hsome
      have hshown := append_shown extra (w.make p n).heap (some d) p
      simp only [es]
      rw [es] at hshown
      simp only [shown] at hshown
      have := apart_step (w.make p n) m1 f (append extra (w.make p n).heap (some d) p).1 s
        (append_held extra _ (some d) p (fun t et => by cases et; exact hd) s es) (append_next _ _ _ _) ?_ ?_
      · refine ⟨this.1, ?_⟩
        rw [this.2, hshown]
        simp [Spec.contents, e]
      · intro x hx hx'
        have := append_frame extra (w.make p n).heap (some d) p x 1 (by omega) (fun t et hc => by
          cases et
          have := hx' d e
          omega)
        have := (read_iff _ _ x 1).mp this 0 (by omega)
        simpa using this
      · intro x a b c
        refine ⟨d, e, ?_⟩
        simp only [append] at es
        split at es
        · cases es; exact ⟨a, b⟩
        · cases es; simp only [fresh] at a; omega
  | prepend f p n =>
    refine ⟨_, rfl, ?_⟩
    obtain ⟨m1, m2⟩ := make_apart w hw p n
    have hb : bytesOf (w.make p n).heap (w.made p n) = p := bytesOf_fresh _ _ _
    simp only [Files.prepend, Spec.call, ← m2]
    cases e : (w.make p n).data f with
    | none =>
      refine ⟨m1, ?_⟩
      funext g
      simp only [Spec.change]
      split
      · next hg => subst hg; simp [Spec.contents, e]
      · rfl
    | some d =>
      have e' : w.data f = some d := e
      have hd := m1.1 f d e
      have hm : Held (w.make p n).heap (w.made p n) := held_fresh _ _ _
      obtain ⟨s, es⟩ : ∃ s, (append extra (w.make p n).heap (some (w.made p n)) (bytesOf (w.make p n).heap d)).2 = some s := by
        simp only [append]; split <;> exact ⟨_, rfl⟩
      have hshown := append_shown extra (w.make p n).heap (some (w.made p n)) (bytesOf (w.make p n).heap d)
      rw [es] at hshown
      simp only [shown, hb] at hshown
      have mono : w.heap.next ≤ (append extra (w.make p n).heap (some (w.made p n)) (bytesOf (w.make p n).heap d)).1.next :=
        Nat.le_trans (by simp [Files.make, fresh]) (append_next _ _ _ _)
      have := apart_step w hw f (append extra (w.make p n).heap (some (w.made p n)) (bytesOf (w.make p n).heap d)).1 s
        (append_held extra _ (some (w.made p n)) _ (fun t et => by cases et; exact hm) s es) mono ?_ ?_
      · simp only [es]
        refine ⟨this.1, ?_⟩
        have h3 := this.2
        rw [hshown] at h3
        rw [← m2] at h3
        simp only [Spec.contents, e, Option.map_some] at h3 ⊢
        exact h3
      · intro x hx hx'
        have := append_frame extra (w.make p n).heap (some (w.made p n)) (bytesOf (w.make p n).heap d) x 1
          (by simp only [Files.make, fresh]; omega) (fun t et hc => by
            cases et
            simp only [Files.made, fresh]
            omega)
        have := (read_iff _ _ x 1).mp this 0 (by omega)
        simp only [Nat.add_zero] at this
        rw [this]
        exact outside x hx p n
      · intro x a b c
        exfalso
        simp only [append] at es
        split at es
        · cases es; simp only [Files.made, fresh] at a; omega
        · cases es; simp only [fresh, Files.make] at a; omega
  | marshalTo f p n =>
    refine ⟨_, rfl, ?_⟩
    obtain ⟨h1, h2⟩ := hw
    have mono : w.heap.next ≤ (append extra (w.make p n).heap (some (w.made p n)) (shown (w.make p n).heap ((w.make p n).data f))).1.next :=
      Nat.le_trans (by simp [Files.make, fresh]) (append_next _ _ _ _)
    refine ⟨⟨fun g s e => held_mono _ _ _ mono (h1 g s e), h2⟩, ?_⟩
    funext g
    simp only [Spec.contents, Files.marshalTo, Spec.call]
    cases e : w.data g with
    | none => simp [Files.make, e]
    | some t =>
      simp only [Files.make, e, Option.map_some]
      congr 1
      have hh := h1 g t e
      have hlt : t.data + t.len ≤ w.heap.next := by have := hh.1; have := hh.2; omega
      have := append_frame extra (w.make p n).heap (some (w.made p n)) (shown (w.make p n).heap ((w.make p n).data f)) t.data t.len
        (by simp only [Files.make, fresh]; omega) (fun u eu hc => by cases eu; simp only [Files.made, fresh]; omega)
      exact this.trans (read_fresh_old _ _ _ _ _ hlt)
  | replaceLocation f rs =>
    obtain ⟨b, eb, hb⟩ := ho
    cases e : w.data f with
    | none => simp [Spec.contents, e] at eb
    | some d =>
      simp only [Spec.contents, e, Option.map_some, Option.some.injEq] at eb
      have hd := hw.1 f d e
      obtain ⟨junk, hj⟩ := replaceLoop_read extra rs 0 w.heap d 0 hd
      have h128 := Os.C128_replace_location junk b rs hb
      rw [eb, show Os.replaceLoop junk 0 0 b rs = Os.replaceLocation junk b rs from rfl, h128] at hj
      cases er : Files.replaceLoop extra 0 w.heap d rs with
      | none => simp [er] at hj
      | some r =>
        rw [er] at hj
        simp only [Option.map_some, Option.some.injEq] at hj
        obtain ⟨k1, k2, k3, k4⟩ := replaceLoop_frame extra rs 0 w.heap d hd r er
        have := apart_step w hw f r.1 r.2 k1 k2 (fun x hx hx' => k3 x (by
            intro hwi
            rcases hwi with hwi | hwi
            · exact hx' d e hwi
            · omega)) (fun x a b c => by
            rcases k4 x (Or.inl ⟨a, b⟩) with hwi | hwi
            · exact ⟨d, e, hwi⟩
            · omega)
        refine ⟨w.setData r.1 f (some r.2), by simp [FOp.run, Files.replaceLocation, e, er], this.1, ?_⟩
        rw [this.2, hj]
        have hcf : Spec.contents w f = some b := by simp only [Spec.contents, e, Option.map_some, eb]
        simp only [Spec.call, hcf, Option.map_some]

/-- **C285** the part that holds: when every slice given to a file is one just made and used for nothing else, all files together behave
as if each had bytes of its own, through any history of calls and however much room Go's `append` takes: no call panics, and after
each the contents are those of the specification. Missing: slices given away twice, kept by the caller, or taken from another file, see
the `_violated` theorems. -/
theorem C285_own_contents_partial (extra : Nat → Nat → Nat) (w : Files) (hw : Spec.Apart w) (ops : List FOp)
    (ho : Spec.allAllowed (Spec.contents w) ops) :
    ∃ v, FOp.runs extra w ops = some v ∧ Spec.Apart v ∧ Spec.contents v = ops.foldl Spec.call (Spec.contents w) := by
  induction ops generalizing w with
  | nil => exact ⟨w, rfl, hw, rfl⟩
  | cons o os ih =>
    obtain ⟨u, e1, e2, e3⟩ := run_contents extra w hw o ho.1
    obtain ⟨v, f1, f2, f3⟩ := ih u e2 (by rw [e3]; exact ho.2)
    exact ⟨v, by simp only [FOp.runs, e1, Option.bind_some, f1], f2, by rw [f3, e3]; rfl⟩

/-- No file has data in memory. -/
def noFiles : Files := ⟨⟨fun _ => 0, 0⟩, fun _ => none⟩

theorem noFiles_apart : Spec.Apart noFiles := ⟨fun _ _ e => (by cases e), fun _ _ _ _ _ e => (by cases e)⟩

example : Spec.Apart noFiles ∧
    Spec.allAllowed (Spec.contents noFiles) [.unmarshal 0 (bs "abc") 4, .unmarshal 1 (bs "xy") 0, .append 0 (bs "d") 0, .prepend 1 (bs "w") 9,
      .replaceLocation 0 [⟨bs "ZZ", 1, 2⟩]] ∧
    ((FOp.runs (fun _ _ => 2) noFiles [.unmarshal 0 (bs "abc") 4, .unmarshal 1 (bs "xy") 0, .append 0 (bs "d") 0, .prepend 1 (bs "w") 9,
      .replaceLocation 0 [⟨bs "ZZ", 1, 2⟩]]).map fun v => (Spec.contents v 0, Spec.contents v 1)) = some (some (bs "aZZcd"), some (bs "wxy")) := by
  refine ⟨noFiles_apart, ?_, by decide +kernel⟩
  simp [Spec.allAllowed, Spec.allowed, Spec.call, Spec.change, Spec.contents, noFiles, Os.RSpec.InOrder, bs]

theorem prepend_room (extra : Nat → Nat → Nat) (w : Files) (f : Nat) (s c : SliceHeader) (hc : w.data f = some c) (h : s.len + c.len ≤ s.cap) :
    w.prepend extra f s = w.setData (put w.heap (s.data + s.len) (bytesOf w.heap c)) f (some ⟨s.data, s.len + c.len, s.cap⟩) := by
  have l1 : (bytesOf w.heap c).length = c.len := by simp [bytesOf]
  simp only [Files.prepend, hc, append, l1, if_pos h]

theorem append_room (extra : Nat → Nat → Nat) (w : Files) (f : Nat) (s c : SliceHeader) (hc : w.data f = some c) (h : c.len + s.len ≤ c.cap) :
    w.append extra f s = w.setData (put w.heap (c.data + c.len) (bytesOf w.heap s)) f (some ⟨c.data, c.len + s.len, c.cap⟩) := by
  have l1 : (bytesOf w.heap s).length = s.len := by simp [bytesOf]
  simp only [Files.append, hc, append, l1, if_pos h]

/-- C285 violated: the same slice put before two files goes into the room behind it both times, so the first file shows the contents of the
second one behind the slice. -/
theorem C285_prepend_twice_violated (extra : Nat → Nat → Nat) (w : Files) (f g : Nat) (hfg : f ≠ g) (s c d : SliceHeader)
    (hc : w.data f = some c) (hd : w.data g = some d) (hcs : s.len + c.len ≤ s.cap) (hds : s.len + d.len ≤ s.cap) (hlen : d.len ≤ c.len)
    (hap : Spec.apart s d) (hdl : d.len ≤ d.cap) :
    Spec.contents ((w.prepend extra f s).prepend extra g s) f =
      some (bytesOf w.heap s ++ bytesOf w.heap d ++ (bytesOf w.heap c).drop d.len) := by
  have l1 : (bytesOf w.heap c).length = c.len := by simp [bytesOf]
  have keep : bytesOf (put w.heap (s.data + s.len) (bytesOf w.heap c)) d = bytesOf w.heap d := by
    refine read_congr _ _ _ _ fun k hk => ?_
    rw [put_cells, if_neg]
    rw [l1]
    intro hh
    exact hap (d.data + k) ⟨by omega, by omega⟩
  have l2 : (bytesOf w.heap d).length = d.len := by simp [bytesOf]
  rw [prepend_room extra w f s c hc hcs, prepend_room extra _ g s d (by simp [Files.setData, Ne.symm hfg, hd]) hds]
  simp only [Spec.contents, Files.setData, if_neg hfg, if_pos, Option.map_some, keep]
  congr 1
  unfold bytesOf at *
  rw [read_put_inside _ _ _ _ _ (by simp only [l2]; omega), l2, read_put_apart _ _ _ _ _ (by omega)]
  congr 1
  simp only
  have : s.len + c.len - s.len - d.len = c.len - d.len := by omega
  rw [this]
  have hin := read_put_same w.heap (s.data + s.len) (read w.heap c.data c.len)
  rw [l1] at hin
  have h2 := congrArg (fun (l : Bytes) => l.drop d.len) hin
  rw [read_drop _ _ _ _ hlen] at h2
  exact h2

/-- Three slices: a head with room for three more bytes, and the data of two files. -/
def demoFiles : Files := ⟨demo, fun f => if f = 0 then some ⟨5, 2, 2⟩ else if f = 1 then some ⟨8, 2, 2⟩ else none⟩

example : Spec.apart ⟨0, 2, 5⟩ ⟨8, 2, 2⟩ ∧ Spec.contents demoFiles 0 = some [5, 6] ∧ Spec.contents demoFiles 1 = some [8, 9] ∧
    Spec.contents ((demoFiles.prepend (fun _ _ => 0) 0 ⟨0, 2, 5⟩).prepend (fun _ _ => 0) 1 ⟨0, 2, 5⟩) 0 = some [0, 1, 8, 9] :=
  ⟨fun x => by simp only; omega, by decide +kernel⟩

/-- C285 violated: a file given the data of another file, as `g.Unmarshal(f.Marshal())` does, shares it: both append into the same room, and what
was appended to the first file is replaced by what is appended to the second. -/
theorem C285_copied_append_violated (extra : Nat → Nat → Nat) (w : Files) (f g : Nat) (hfg : f ≠ g) (c p q : SliceHeader) (hc : w.marshal f = some c)
    (hl : p.len = q.len) (hcap : c.len + p.len ≤ c.cap) (hap : Spec.apart c q) (hql : q.len ≤ q.cap) :
    Spec.contents (((w.unmarshal g c).append extra f p).append extra g q) f = some (bytesOf w.heap c ++ bytesOf w.heap q) := by
  have hc' : w.data f = some c := hc
  have l1 : (bytesOf w.heap p).length = p.len := by simp [bytesOf]
  have l2 : (bytesOf w.heap q).length = q.len := by simp [bytesOf]
  have keep : bytesOf (put w.heap (c.data + c.len) (bytesOf w.heap p)) q = bytesOf w.heap q := by
    refine read_congr _ _ _ _ fun k hk => ?_
    rw [put_cells, if_neg]
    rw [l1]
    intro hh
    exact hap (q.data + k) ⟨by omega, by omega⟩
  rw [append_room extra _ f p c (by simp [Files.unmarshal, Files.setData, hfg, hc']) hcap,
    append_room extra _ g q c (by simp [Files.unmarshal, Files.setData, Ne.symm hfg]) (by omega)]
  simp only [Spec.contents, Files.setData, Files.unmarshal, if_neg hfg, if_pos, Option.map_some, keep]
  congr 1
  simp only [bytesOf] at *
  rw [read_add, read_put_apart _ _ _ _ _ (by omega), read_put_apart _ _ _ _ _ (by omega)]
  congr 1
  have := read_put_same (put w.heap (c.data + c.len) (read w.heap p.data p.len)) (c.data + c.len) (read w.heap q.data q.len)
  rw [l2, hl] at this
  rw [hl]
  exact this

example : Spec.apart ⟨0, 2, 4⟩ ⟨6, 2, 2⟩ ∧ (⟨demo, fun f => if f = 0 then some ⟨0, 2, 4⟩ else none⟩ : Files).marshal 0 = some ⟨0, 2, 4⟩ ∧
    Spec.contents ((((⟨demo, fun f => if f = 0 then some ⟨0, 2, 4⟩ else none⟩ : Files).unmarshal 1 ⟨0, 2, 4⟩).append (fun _ _ => 0) 0 ⟨8, 2, 2⟩).append
      (fun _ _ => 0) 1 ⟨6, 2, 2⟩) 0 = some [0, 1, 6, 7] := ⟨fun x => by simp only; omega, by decide +kernel⟩

/-- **C285** the part that holds: a file given the data of another file keeps its contents when the other is appended to and there is room, and the
other way round: both show the common bytes with their own addition as long as only one of them is appended to. Missing: appending to
both, see `C285_copied_append_violated`. -/
theorem C285_copied_one_partial (extra : Nat → Nat → Nat) (w : Files) (f g : Nat) (hfg : f ≠ g) (c p : SliceHeader) (hc : w.marshal f = some c)
    (hch : Held w.heap c) :
    Spec.contents ((w.unmarshal g c).append extra f p) f = some (bytesOf w.heap c ++ bytesOf w.heap p) ∧
    Spec.contents ((w.unmarshal g c).append extra f p) g = some (bytesOf w.heap c) := by
  have hc' : w.data f = some c := hc
  have d1 : (w.unmarshal g c).data f = some c := by simp [Files.unmarshal, Files.setData, hfg, hc']
  have d2 : (w.unmarshal g c).data g = some c := by simp [Files.unmarshal, Files.setData]
  have hh : (w.unmarshal g c).heap = w.heap := rfl
  obtain ⟨s, es⟩ : ∃ s, (append extra w.heap (some c) (bytesOf w.heap p)).2 = some s := by
    simp only [append]; split <;> exact ⟨_, rfl⟩
  have hshown := append_shown extra w.heap (some c) (bytesOf w.heap p)
  rw [es] at hshown
  simp only [shown] at hshown
  refine ⟨?_, ?_⟩
  · simp only [Spec.contents, Files.append, d1, hh, Files.setData, if_pos, es, Option.map_some, hshown]
  · simp only [Spec.contents, Files.append, d1, hh, Files.setData, if_neg (Ne.symm hfg), d2, Option.map_some]
    congr 1
    exact append_frame extra w.heap (some c) _ _ _ (by have := hch.1; have := hch.2; omega) (fun t et _ => by cases et; left; omega)

example : Held demo ⟨0, 2, 4⟩ ∧ (⟨demo, fun f => if f = 0 then some ⟨0, 2, 4⟩ else none⟩ : Files).marshal 0 = some ⟨0, 2, 4⟩ ∧
    Spec.contents (((⟨demo, fun f => if f = 0 then some ⟨0, 2, 4⟩ else none⟩ : Files).unmarshal 1 ⟨0, 2, 4⟩).append (fun _ _ => 0) 0 ⟨8, 2, 2⟩) 1 =
      some [0, 1] := ⟨⟨by decide, by decide⟩, by decide +kernel⟩

/-- C285 violated: `ReplaceLocation` of a piece by one of the same length writes into the array, so another file that was given this file's
data shows the change too, and so does everybody who holds what `Marshal` answered. -/
theorem C285_replace_seen_violated (extra : Nat → Nat → Nat) (w : Files) (f g : Nat) (hfg : f ≠ g) (c : SliceHeader) (hc : w.marshal f = some c)
    (d : Bytes) (i : Nat) (hi : i + d.length ≤ c.len) :
    ∃ v, (w.unmarshal g c).replaceLocation extra f [⟨d, i, i + d.length⟩] = some v ∧
      Spec.contents v g = some ((bytesOf w.heap c).take i ++ d ++ (bytesOf w.heap c).drop (i + d.length)) ∧
      bytesOf v.heap c = (bytesOf w.heap c).take i ++ d ++ (bytesOf w.heap c).drop (i + d.length) := by
  have hc' : w.data f = some c := hc
  have d1 : (w.unmarshal g c).data f = some c := by simp [Files.unmarshal, Files.setData, hfg, hc']
  have hh : (w.unmarshal g c).heap = w.heap := rfl
  have e0 : ((d.length : Int) - ((i : Int) + d.length - i)) = 0 := by omega
  have key : Files.replaceOne extra w.heap c d i (i + d.length) =
      some (put (put w.heap (c.data + (i + d.length)) ((bytesOf w.heap c).drop (i + d.length))) (c.data + i) d, c) := by
    have t1 : ((i : Int) + d.length).toNat = i + d.length := by omega
    have lb : (bytesOf w.heap c).length = c.len := by simp [bytesOf]
    simp only [Files.replaceOne, e0, Files.enlarge, Int.lt_irrefl, if_false, Files.fromAt, Files.copyAt, Int.add_zero, t1, Int.toNat_natCast,
      if_neg (show ¬ ((i : Int) + d.length < 0 ∨ (c.len : Int) < i + d.length) by omega),
      if_neg (show ¬ ((i : Int) < 0 ∨ (c.len : Int) < i) by omega), Option.bind_some, Files.shorten, Option.map_some]
    rw [List.take_of_length_le (by simp [lb]), List.take_of_length_le (by omega)]
  have same : put w.heap (c.data + (i + d.length)) ((bytesOf w.heap c).drop (i + d.length)) = w.heap := by
    cases hw : w.heap with
    | mk cells next =>
      simp only [put]
      congr 1
      funext x
      split
      · next hx =>
        simp only [bytesOf, read_drop _ _ _ _ hi, read_length] at hx ⊢
        rw [List.getD, read_getElem?, if_pos (by omega)]
        simp only [Option.getD_some]
        congr 1; omega
      · rfl
  rw [same] at key
  have fin : bytesOf (put w.heap (c.data + i) d) c = (bytesOf w.heap c).take i ++ d ++ (bytesOf w.heap c).drop (i + d.length) := by
    unfold bytesOf
    rw [read_put_inside _ _ _ _ _ hi, read_take _ _ _ _ (by omega), read_drop _ _ _ _ hi, Nat.add_assoc, Nat.sub_sub]
  refine ⟨(w.unmarshal g c).setData (put w.heap (c.data + i) d) f (some c), ?_, ?_, fin⟩
  · simp only [Files.replaceLocation, d1, hh, Files.replaceLoop, Int.add_zero, key, Option.bind_some, Option.map_some]
  · simp only [Spec.contents, Files.setData, Files.unmarshal, if_neg (Ne.symm hfg), if_pos, Option.map_some, fin]

example : ((((⟨demo, fun f => if f = 0 then some ⟨0, 4, 4⟩ else none⟩ : Files).unmarshal 1 ⟨0, 4, 4⟩).replaceLocation (fun _ _ => 0) 0
    [⟨[9], 1, 2⟩]).map fun v => Spec.contents v 1) = some (some [0, 9, 2, 3]) := by decide +kernel

/-- C285 violated: a store into the slice given to `Unmarshal`, or into the slice `Marshal` answered, changes the file. -/
theorem C285_store_violated (w : Files) (f : Nat) (s : SliceHeader) (i : Nat) (hi : i < s.len) (b : Byte) (hb : b ≠ w.heap.cells (s.data + i)) :
    (w.unmarshal f s).marshal f = some s ∧
    Spec.contents ⟨put (w.unmarshal f s).heap (s.data + i) [b], (w.unmarshal f s).data⟩ f ≠ Spec.contents (w.unmarshal f s) f := by
  refine ⟨by simp [Files.marshal, Files.unmarshal, Files.setData], fun e => hb ?_⟩
  simp only [Spec.contents, Files.unmarshal, Files.setData, if_pos, Option.map_some, Option.some.injEq, bytesOf] at e
  have := (read_iff _ _ _ _).mp e i hi
  rw [put_cells, if_pos (by simp)] at this
  simpa using this

example : Spec.contents ⟨put (noFiles.unmarshal 0 ⟨0, 2, 2⟩).heap 1 [7], (noFiles.unmarshal 0 ⟨0, 2, 2⟩).data⟩ 0 = some [0, 7] := by decide +kernel

/-- **C285** the part that holds: `MarshalTo` gives the caller bytes that are not shared with the file: the caller's bytes and then the contents, and
stores into them leave the file as it is, when the caller's array is apart from the file's. Missing: what `Marshal` answers is shared, see
`C285_store_violated`. -/
theorem C285_marshal_to_partial (extra : Nat → Nat → Nat) (w : Files) (f : Nat) (s c : SliceHeader) (hc : w.data f = some c) (hch : Held w.heap c)
    (hap : Spec.apart s c) :
    ∃ r, (w.marshalTo extra f s).2 = some r ∧ bytesOf (w.marshalTo extra f s).1.heap r = bytesOf w.heap s ++ bytesOf w.heap c ∧
      Spec.contents (w.marshalTo extra f s).1 f = Spec.contents w f ∧
      ∀ i b, i < r.len → Spec.contents ⟨put (w.marshalTo extra f s).1.heap (r.data + i) [b], (w.marshalTo extra f s).1.data⟩ f = Spec.contents w f := by
  have l1 : (bytesOf w.heap c).length = c.len := by simp [bytesOf]
  have hl := hch.1
  have hn := hch.2
  have hshown := append_shown extra w.heap (some s) (bytesOf w.heap c)
  simp only [Files.marshalTo, hc, shown, Spec.contents, Option.map_some, Option.some.injEq]
  simp only [append, l1] at hshown ⊢
  split at hshown
  · next hcap =>
    rw [if_pos hcap]
    have frame : bytesOf (put w.heap (s.data + s.len) (bytesOf w.heap c)) c = bytesOf w.heap c := by
      refine read_congr _ _ _ _ fun k hk => ?_
      rw [put_cells, if_neg]
      rw [l1]
      intro hh
      exact hap (c.data + k) ⟨by omega, by omega⟩
    refine ⟨_, rfl, hshown, frame, fun i b hi => ?_⟩
    refine Eq.trans ?_ frame
    refine read_congr _ _ _ _ fun k hk => ?_
    rw [put_cells, if_neg]
    intro hh
    simp only [List.length_cons, List.length_nil] at hh
    simp only at hi
    exact hap (c.data + k) ⟨by omega, by omega⟩
  · next hcap =>
    rw [if_neg hcap]
    have frame : bytesOf (fresh w.heap (bytesOf w.heap s ++ bytesOf w.heap c) (extra s.cap (s.len + c.len))).1 c = bytesOf w.heap c :=
      read_fresh_old _ _ _ _ _ (by omega)
    refine ⟨_, rfl, hshown, frame, fun i b hi => ?_⟩
    refine Eq.trans ?_ frame
    refine read_put_apart _ _ _ _ _ (Or.inl ?_)
    simp only [fresh]
    omega

example : Held demo ⟨5, 2, 2⟩ ∧ Spec.apart ⟨0, 2, 5⟩ ⟨5, 2, 2⟩ ∧
    bytesOf (demoFiles.marshalTo (fun _ _ => 0) 0 ⟨0, 2, 5⟩).1.heap ⟨0, 4, 5⟩ = [0, 1, 5, 6] :=
  ⟨⟨by decide, by decide⟩, fun x => by simp only; omega, by decide +kernel⟩

end Memar.Shared
