import Verif.Timer.HeapSpec

/-!
# Lemmas about the timer heap
-/

namespace Memar.Timer

variable {τ : Type}

/-! ## Permutations -/

theorem set_exchange {α} (l : List α) (i : Nat) (h : i < l.length) (a : α) :
    (l[i] :: l.set i a).Perm (a :: l) := by
  rw [List.set_eq_take_append_cons_drop, if_pos h]
  have e : l = l.take i ++ l[i] :: l.drop (i + 1) := by
    conv => lhs; rw [← List.take_append_drop i l, List.drop_eq_getElem_cons h]
  refine (List.Perm.cons _ List.perm_middle).trans ?_
  refine (List.Perm.swap _ _ _).trans (List.Perm.cons _ ?_)
  refine List.Perm.trans List.perm_middle.symm ?_
  rw [← e]

theorem set_move {α} (l : List α) (i p : Nat) (hi : i < l.length) (hp : p < l.length)
    (hne : i ≠ p) (tmp : α) :
    ((l.set i l[p]).set p tmp).Perm (l.set i tmp) := by
  have h1 := set_exchange (l.set i l[p]) p (by simpa using hp) tmp
  rw [List.getElem_set_ne hne] at h1
  have h2 := set_exchange l i hi l[p]
  have h3 := set_exchange l i hi tmp
  have h4 : (l[i] :: l[p] :: (l.set i l[p]).set p tmp).Perm (l[i] :: l[p] :: l.set i tmp) := by
    refine (h1.cons _).trans ?_
    refine (List.Perm.swap _ _ _).trans ?_
    refine (h2.cons _).trans ?_
    refine (List.Perm.swap _ _ _).trans ?_
    refine (h3.symm.cons _).trans ?_
    exact List.Perm.swap _ _ _
  exact h4.cons_inv.cons_inv

/-! ## Heap order of a deadline function -/

def par (k : Nat) : Nat := (k - 1) / 4

/-- The deadline at index `k` (0 outside the list). -/
def W (l : List (Bucket τ)) (k : Nat) : Int := ((l[k]?).map Bucket.when).getD 0

theorem W_some {l : List (Bucket τ)} {k : Nat} {b : Bucket τ} (h : l[k]? = some b) :
    W l k = b.when := by simp [W, h]

theorem W_set {l : List (Bucket τ)} {i : Nat} (b : Bucket τ) (hi : i < l.length) (k : Nat) :
    W (l.set i b) k = if k = i then b.when else W l k := by
  unfold W
  rw [List.getElem?_set]
  by_cases h : i = k
  · subst h; simp [hi]
  · rw [if_neg h, if_neg (fun e => h e.symm)]

def Ord (n : Nat) (w : Nat → Int) : Prop := ∀ k, 0 < k → k < n → w (par k) ≤ w k

/-- Ordered except at `h`, upwards and downwards. -/
def Exc (n : Nat) (w : Nat → Int) (h : Nat) : Prop :=
  (∀ k, 0 < k → k < n → k ≠ h → par k ≠ h → w (par k) ≤ w k) ∧
  (0 < h → ∀ k, 0 < k → k < n → par k = h → w (par h) ≤ w k)

theorem Exc.of_ord {n w h} (H : Ord n w) (hn : h < n) : Exc n w h := by
  refine ⟨fun k h0 hk _ _ => H k h0 hk, fun h0 k k0 hk e => ?_⟩
  have h1 := H k k0 hk
  have h2 := H h h0 hn
  rw [e] at h1
  omega

theorem ord_of_exc {n w h} (H : Exc n w h) (hup : 0 < h → w (par h) ≤ w h)
    (hdn : ∀ k, 0 < k → k < n → par k = h → w h ≤ w k) : Ord n w := by
  intro k h0 hk
  by_cases e : k = h
  · subst e; exact hup h0
  · by_cases e2 : par k = h
    · rw [e2]; exact hdn k h0 hk e2
    · exact H.1 k h0 hk e e2

theorem par_lt {k : Nat} (h : 0 < k) : par k < k := by unfold par; omega

/-- Moving the value at `h` up to its parent. -/
theorem exc_up {n w w' h} (H : Exc n w h) (h0 : 0 < h) (hn : h < n) (hlt : w h < w (par h))
    (hw : ∀ k, w' k = if k = par h then w h else if k = h then w (par h) else w k) :
    Exc n w' (par h) ∧ (∀ k, 0 < k → k < n → par k = par h → w' (par h) ≤ w' k) := by
  have hp := par_lt h0
  have e1 : w' (par h) = w h := by rw [hw, if_pos rfl]
  have e2 : w' h = w (par h) := by rw [hw, if_neg (by omega), if_pos rfl]
  have eo : ∀ k, k ≠ par h → k ≠ h → w' k = w k := fun k a b => by rw [hw, if_neg a, if_neg b]
  refine ⟨⟨fun k k0 hk k1 k2 => ?_, fun p0 k k0 hk kp => ?_⟩, fun k k0 hk kp => ?_⟩
  · by_cases c : k = h
    · subst c; exact absurd rfl k2
    · rw [eo k k1 c]
      by_cases c2 : par k = h
      · rw [c2, e2]; exact H.2 h0 k k0 hk c2
      · rw [eo _ k2 c2]; exact H.1 k k0 hk c c2
  · have hpp := par_lt p0
    have g : w (par (par h)) ≤ w (par h) := H.1 (par h) p0 (by omega) (by omega) (by omega)
    rw [eo (par (par h)) (by omega) (by omega)]
    by_cases c : k = h
    · subst c; rw [e2]; exact g
    · have kl := par_lt k0
      rw [eo k (by omega) c]
      have := H.1 k k0 hk c (by omega)
      rw [kp] at this; omega
  · rw [e1]
    by_cases c : k = h
    · subst c; rw [e2]; omega
    · have kl := par_lt k0
      rw [eo k (by omega) c]
      have := H.1 k k0 hk c (by omega)
      rw [kp] at this; omega

/-- Moving the value at `h` down to its earliest child `c`. -/
theorem exc_down {n w w' h c} (H : Exc n w h) (c0 : 0 < c) (hn : c < n) (hc : par c = h)
    (hmin : ∀ k, 0 < k → k < n → par k = h → w c ≤ w k) (hlt : w c < w h)
    (hw : ∀ k, w' k = if k = c then w h else if k = h then w c else w k) :
    Exc n w' c ∧ (0 < c → w' (par c) ≤ w' c) ∧
      ((0 < h → w (par h) ≤ w h) → (∀ k, 0 < k → k < n → k ≠ c → par k ≠ c → w' (par k) ≤ w' k)) := by
  have hp := par_lt c0
  have e1 : w' c = w h := by rw [hw, if_pos rfl]
  have e2 : w' h = w c := by rw [hw, if_neg (by omega), if_pos rfl]
  have eo : ∀ k, k ≠ c → k ≠ h → w' k = w k := fun k a b => by rw [hw, if_neg a, if_neg b]
  have key : ∀ k, 0 < k → k < n → k ≠ c → par k ≠ c → w' (par k) ≤ w' k := by
    intro k k0 hk k1 k2
    by_cases q : k = h
    · subst q
      rw [e2, eo (par k) k2 (by have := par_lt k0; omega)]
      exact H.2 k0 c c0 hn hc
    · rw [eo k k1 q]
      by_cases q2 : par k = h
      · rw [q2, e2]; exact hmin k k0 hk q2
      · rw [eo _ k2 q2]; exact H.1 k k0 hk q q2
  refine ⟨⟨key, fun _ k k0 hk kp => ?_⟩, fun _ => ?_, fun _ => key⟩
  · have kl := par_lt k0
    rw [hc, e2, eo k (by omega) (by omega)]
    have := H.1 k k0 hk (by omega) (by omega)
    rw [kp] at this; exact this
  · rw [hc, e1, e2]; omega

/-! ## The sift loops -/

theorem siftUpLoop_spec (tmp : Bucket τ) (l : List (Bucket τ)) (i : Nat) (hi : i < l.length) :
    ∃ l' j, siftUpLoop tmp.when l i = some (l', j) ∧ l'.length = l.length ∧ j ≤ i ∧
      (l'.set j tmp).Perm (l.set i tmp) ∧
      (∀ k, k < j → l'[k]? = l[k]?) ∧
      (j = i → l' = l) ∧
      (Exc l.length (W (l.set i tmp)) i →
        (j < i ∨ ∀ k, 0 < k → k < l.length → par k = i → tmp.when ≤ W l k) →
        Ord l.length (W (l'.set j tmp))) ∧
      (j = i → 0 < i → W l (par i) ≤ tmp.when) := by
  induction i using Nat.strongRecOn generalizing l with
  | _ i ih =>
  rw [siftUpLoop.eq_def]
  by_cases h0 : 0 < i
  · rw [dif_pos h0]
    have hpl : par i < i := par_lt h0
    have hp : par i < l.length := by omega
    rw [show (i - 1) / heapAry = par i from rfl]
    obtain ⟨b, hb⟩ : ∃ b, l[par i]? = some b := ⟨_, List.getElem?_eq_getElem hp⟩
    have hbe : l[par i] = b := (List.getElem?_eq_some_iff.mp hb).2
    have hWb : W l (par i) = b.when := W_some hb
    rw [hb]
    simp only
    by_cases hc : tmp.when ≥ b.when
    · rw [if_pos hc]
      have hW : W l (par i) ≤ tmp.when := by rw [hWb]; exact hc
      refine ⟨l, i, rfl, rfl, Nat.le_refl _, List.Perm.refl _, fun _ _ => rfl, fun _ => rfl, ?_,
        fun _ _ => hW⟩
      intro hE hd
      refine ord_of_exc hE (fun _ => ?_) (fun k k0 hk kp => ?_)
      · rw [W_set _ hi, W_set _ hi, if_pos rfl, if_neg (by omega)]; exact hW
      · rcases hd with hd | hd
        · omega
        · have := par_lt k0
          rw [W_set _ hi, W_set _ hi, if_pos rfl, if_neg (by omega)]; exact hd k k0 hk kp
    · rw [if_neg hc]
      have hs : setAt l i b = some (l.set i b) := by rw [setAt, if_pos hi]
      rw [hs]; simp only
      have hp' : par i < (l.set i b).length := by rw [List.length_set]; exact hp
      obtain ⟨l', j, r1, r2, r3, r4, r5, r6, r7, r8⟩ := ih _ hpl (l.set i b) hp'
      have hpm := set_move l i _ hi hp (by omega) tmp
      rw [hbe] at hpm
      refine ⟨l', j, r1, by rw [r2, List.length_set], by omega, r4.trans hpm, ?_,
        fun e => by omega, ?_, fun e => by omega⟩
      · intro k hk
        rw [r5 k hk, List.getElem?_set_ne (by omega)]
      · intro hE _
        rw [List.length_set] at r7
        have hup := exc_up (w := W (l.set i tmp))
          (w' := W ((l.set i b).set (par i) tmp)) hE h0 hi
          (by rw [W_set _ hi, W_set _ hi, if_pos rfl, if_neg (by omega), hWb]; omega)
          (by
            intro k
            rw [W_set _ hp', W_set _ hi, W_set _ hi, W_set _ hi,
              W_set _ hi, if_pos rfl, if_neg (by omega : par i ≠ i)]
            by_cases a : k = par i
            · rw [if_pos a, if_pos a]
            · rw [if_neg a, if_neg a]
              by_cases a2 : k = i
              · rw [if_pos a2, if_pos a2, hWb]
              · rw [if_neg a2, if_neg a2, if_neg a2])
        refine r7 hup.1 (Or.inr ?_)
        intro k k0 hk kp
        have := hup.2 k k0 hk kp
        have kl := par_lt k0
        rw [W_set tmp hp' (par i), W_set tmp hp' k, if_pos rfl, if_neg (by omega)] at this
        exact this
  · rw [dif_neg h0]
    refine ⟨l, i, rfl, rfl, Nat.le_refl _, List.Perm.refl _, fun _ _ => rfl, fun _ => rfl, ?_,
      fun _ h => absurd h h0⟩
    intro hE hd
    refine ord_of_exc hE (fun h => absurd h h0) (fun k k0 hk kp => ?_)
    rcases hd with hd | hd
    · omega
    · have := par_lt k0
      rw [W_set _ hi, W_set _ hi, if_pos rfl, if_neg (by omega)]; exact hd k k0 hk kp

theorem pickPair_spec (l : List (Bucket τ)) (c : Nat) (b : Bucket τ) (hb : l[c]? = some b) :
    ((pickPair l c b.when).1 = c ∨ (pickPair l c b.when).1 = c + 1) ∧
      (pickPair l c b.when).1 < l.length ∧
      (pickPair l c b.when).2 = W l (pickPair l c b.when).1 ∧
      (pickPair l c b.when).2 ≤ W l c ∧
      (c + 1 < l.length → (pickPair l c b.when).2 ≤ W l (c + 1)) := by
  have hc : c < l.length := (List.getElem?_eq_some_iff.mp hb).1
  unfold pickPair
  cases h : l[c + 1]? with
  | none =>
    have hn := List.getElem?_eq_none_iff.mp h
    refine ⟨Or.inl rfl, hc, (W_some hb).symm, ?_, fun hh => by omega⟩
    rw [W_some hb]; exact Int.le_refl _
  | some b1 =>
    have hn := (List.getElem?_eq_some_iff.mp h).1
    simp only
    split
    · refine ⟨Or.inr rfl, hn, (W_some h).symm, ?_, fun _ => ?_⟩
      · rw [W_some hb]; simp only; omega
      · rw [W_some h]; exact Int.le_refl _
    · refine ⟨Or.inl rfl, hc, (W_some hb).symm, ?_, fun _ => ?_⟩
      · rw [W_some hb]; exact Int.le_refl _
      · rw [W_some h]; simp only; omega

theorem minChild_none {l : List (Bucket τ)} {i : Nat} (h : minChild l i = none) :
    ∀ k, 0 < k → k < l.length → par k ≠ i := by
  unfold minChild at h
  split at h
  · rename_i hn
    have hn := List.getElem?_eq_none_iff.mp hn
    intro k k0 hk
    simp only [heapAry] at hn
    unfold par; omega
  · split at h
    · cases h
    · split at h <;> cases h

theorem minChild_some {l : List (Bucket τ)} {i c : Nat} {w : Int} (h : minChild l i = some (c, w)) :
    0 < c ∧ c < l.length ∧ par c = i ∧ w = W l c ∧
      ∀ k, 0 < k → k < l.length → par k = i → w ≤ W l k := by
  unfold minChild at h
  split at h
  · cases h
  · rename_i b hb
    obtain ⟨a1, a2, a3, a4, a5⟩ := pickPair_spec l _ b hb
    revert h a1 a2 a3 a4 a5
    generalize pickPair l (i * heapAry + 1) b.when = q
    intro h a1 a2 a3 a4 a5
    split at h
    · rename_i hn
      have hn := List.getElem?_eq_none_iff.mp hn
      cases h
      simp only [heapAry] at *
      refine ⟨by omega, a2, by unfold par; omega, a3, fun k k0 hk kp => ?_⟩
      have : k = i * 4 + 1 ∨ k = i * 4 + 1 + 1 := by unfold par at kp; omega
      rcases this with rfl | rfl
      · exact a4
      · exact a5 hk
    · rename_i b3 hb3
      obtain ⟨d1, d2, d3, d4, d5⟩ := pickPair_spec l _ b3 hb3
      revert h d1 d2 d3 d4 d5
      generalize pickPair l (i * heapAry + 1 + heapAry / 2) b3.when = r
      intro h d1 d2 d3 d4 d5
      have h3 : i * heapAry + 1 + heapAry / 2 < l.length := (List.getElem?_eq_some_iff.mp hb3).1
      simp only [heapAry] at *
      have cases4 : ∀ k, 0 < k → par k = i →
          k = i * 4 + 1 ∨ k = i * 4 + 1 + 1 ∨ k = i * 4 + 1 + 4 / 2 ∨ k = i * 4 + 1 + 4 / 2 + 1 := by
        intro k k0 kp; unfold par at kp; omega
      split at h
      · rename_i hlt
        cases h
        simp only at *
        refine ⟨by omega, d2, by unfold par; omega, d3, fun k k0 hk kp => ?_⟩
        rcases cases4 k k0 kp with rfl | rfl | rfl | rfl
        · omega
        · have := a5 hk; omega
        · exact d4
        · exact d5 hk
      · rename_i hlt
        cases h
        simp only at *
        refine ⟨by omega, a2, by unfold par; omega, a3, fun k k0 hk kp => ?_⟩
        rcases cases4 k k0 kp with rfl | rfl | rfl | rfl
        · exact a4
        · exact a5 hk
        · omega
        · have := d5 hk; omega

theorem siftDownLoop_spec (tmp : Bucket τ) (n : Nat) (l : List (Bucket τ)) (i : Nat)
    (hl : l.length = n) (hi : i < n) :
    ∃ l' j, siftDownLoop tmp.when l i = some (l', j) ∧ l'.length = n ∧ i ≤ j ∧ j < n ∧
      (l'.set j tmp).Perm (l.set i tmp) ∧
      (∀ k, k < i → l'[k]? = l[k]?) ∧
      (j = i → l' = l) ∧
      (Exc n (W (l.set i tmp)) i → (0 < i → W l (par i) ≤ tmp.when) →
        Ord n (W (l'.set j tmp))) := by
  induction hm : n - i using Nat.strongRecOn generalizing l i with
  | _ m ih =>
  rw [siftDownLoop.eq_def]
  have hi' : i < l.length := by omega
  split
  · rename_i hmc
    refine ⟨l, i, rfl, hl, Nat.le_refl _, hi, List.Perm.refl _, fun _ _ => rfl, fun _ => rfl, ?_⟩
    intro hE hup
    refine ord_of_exc hE (fun h0 => ?_) (fun k k0 hk kp => ?_)
    · have := par_lt h0
      rw [W_set _ hi', W_set _ hi', if_pos rfl, if_neg (by omega)]; exact hup h0
    · exact absurd kp (minChild_none hmc k k0 (by omega))
  · rename_i c w hmc
    obtain ⟨c0, hc, cp, hw, hmin⟩ := minChild_some hmc
    have hci : i < c := minChild_gt hmc
    split
    · rename_i hge
      refine ⟨l, i, rfl, hl, Nat.le_refl _, hi, List.Perm.refl _, fun _ _ => rfl, fun _ => rfl, ?_⟩
      intro hE hup
      refine ord_of_exc hE (fun h0 => ?_) (fun k k0 hk kp => ?_)
      · have := par_lt h0
        rw [W_set _ hi', W_set _ hi', if_pos rfl, if_neg (by omega)]; exact hup h0
      · have := par_lt k0
        rw [W_set _ hi', W_set _ hi', if_pos rfl, if_neg (by omega)]
        have := hmin k k0 (by omega) kp; omega
    · rename_i hlt
      split
      · rename_i hn
        have hn := List.getElem?_eq_none_iff.mp hn; omega
      · rename_i b hb
        have hbc : l[c] = b := (List.getElem?_eq_some_iff.mp hb).2
        rw [setAt, if_pos hi']
        simp only
        have hcn : c < n := by omega
        obtain ⟨l', j, r1, r2, r3, r3', r4, r5, r6, r7⟩ :=
          ih (n - c) (by omega) (l.set i b) c (by rw [List.length_set]; exact hl) hcn rfl
        have hpm := set_move l i c hi' hc (by omega) tmp
        rw [hbc] at hpm
        refine ⟨l', j, r1, r2, by omega, r3', r4.trans hpm, ?_, fun e => by omega, ?_⟩
        · intro k hk
          rw [r5 k (by omega), List.getElem?_set_ne (by omega)]
        · intro hE hup
          have hc' : c < (l.set i b).length := by rw [List.length_set]; exact hc
          have Wc : W l c = b.when := W_some hb
          have hdn := exc_down (w := W (l.set i tmp)) (w' := W ((l.set i b).set c tmp)) hE c0 hcn cp
            (by
              intro k k0 hk kp
              have := par_lt k0
              rw [W_set _ hi', W_set _ hi', if_neg (by omega), if_neg (by omega)]
              rw [← hw]; exact hmin k k0 (by omega) kp)
            (by rw [W_set _ hi', W_set _ hi', if_pos rfl, if_neg (by omega)]; omega)
            (by
              intro k
              rw [W_set _ hc', W_set _ hi', W_set _ hi', W_set _ hi', W_set _ hi', if_pos rfl,
                if_neg (by omega : c ≠ i)]
              by_cases a : k = c
              · rw [if_pos a, if_pos a]
              · rw [if_neg a, if_neg a]
                by_cases a2 : k = i
                · rw [if_pos a2, if_pos a2, Wc]
                · rw [if_neg a2, if_neg a2, if_neg a2])
          refine r7 hdn.1 (fun _ => ?_)
          rw [cp, W_set _ hi', if_pos rfl, ← Wc]; omega

/-! ## The public operations -/

theorem place_eq [DecidableEq τ] (l : List (Bucket τ)) (i : Nat) (hi : i < l.length) (tmp : Bucket τ) :
    place l i tmp = some (l.set i tmp) := by
  unfold place
  rw [List.getElem?_eq_getElem hi]
  simp only
  split
  · rw [setAt, if_pos hi]
  · rename_i h
    have h : tmp = l[i] := Decidable.not_not.mp h
    rw [h, List.set_getElem_self]

theorem siftUp_spec [DecidableEq τ] (l : List (Bucket τ)) (i : Nat) (hi : i < l.length) :
    ∃ l' j, siftUp l i = some (l', j) ∧ l'.length = l.length ∧ j ≤ i ∧ l'.Perm l ∧
      (∀ k, k < j → l'[k]? = l[k]?) ∧ (j = i → l' = l) ∧
      (Exc l.length (W l) i →
        (j < i ∨ ∀ k, 0 < k → k < l.length → par k = i → W l i ≤ W l k) →
        Ord l.length (W l')) ∧
      (j = i → 0 < i → W l (par i) ≤ W l i) := by
  obtain ⟨l', j, r1, r2, r3, r4, r5, r6, r7, r8⟩ := siftUpLoop_spec l[i] l i hi
  rw [List.set_getElem_self] at r4 r7
  have e : W l i = (l[i]).when := W_some (List.getElem?_eq_getElem hi)
  refine ⟨l'.set j l[i], j, ?_, by rw [List.length_set]; exact r2, r3, r4, ?_, ?_, ?_, ?_⟩
  · unfold siftUp
    rw [List.getElem?_eq_getElem hi]
    simp only
    rw [r1]
    simp only
    rw [place_eq _ _ (by omega)]
  · intro k hk
    rw [List.getElem?_set_ne (by omega)]; exact r5 k hk
  · intro h; rw [r6 h, h, List.set_getElem_self]
  · rw [e]; exact r7
  · rw [e]; exact r8

theorem siftDown_spec [DecidableEq τ] (l : List (Bucket τ)) (i : Nat) (hi : i < l.length) :
    ∃ l', siftDown l i = some l' ∧ l'.length = l.length ∧ l'.Perm l ∧
      (∀ k, k < i → l'[k]? = l[k]?) ∧
      (Exc l.length (W l) i → (0 < i → W l (par i) ≤ W l i) → Ord l.length (W l')) := by
  obtain ⟨l', j, r1, r2, r3, r3', r4, r5, r6, r7⟩ := siftDownLoop_spec l[i] l.length l i rfl hi
  rw [List.set_getElem_self] at r4 r7
  have e : W l i = (l[i]).when := W_some (List.getElem?_eq_getElem hi)
  refine ⟨l'.set j l[i], ?_, by rw [List.length_set]; exact r2, r4, ?_, ?_⟩
  · unfold siftDown
    rw [List.getElem?_eq_getElem hi]
    simp only
    rw [r1]
    simp only
    rw [place_eq _ _ (by omega)]
  · intro k hk
    rw [List.getElem?_set_ne (by omega)]; exact r5 k hk
  · rw [e]; exact r7

theorem ord_iff (l : List (Bucket τ)) : HeapOrder l ↔ Ord l.length (W l) := by
  constructor
  · intro H k k0 hk
    have hp : par k < l.length := by have := par_lt k0; omega
    have hb := List.getElem?_eq_getElem hk
    have hpb := List.getElem?_eq_getElem hp
    rw [W_some hb, W_some hpb]
    exact H k _ _ k0 hb hpb
  · intro H k b p k0 hb hp
    have hk : k < l.length := (List.getElem?_eq_some_iff.mp hb).1
    have h := H k k0 hk
    rw [W_some hb, W_some (show l[par k]? = some p from hp)] at h
    exact h

/-- Removing the last entry and overwriting entry `i` by it: the multiset. -/
theorem replace_perm {α} (l : List α) (i : Nat) (hi : i < l.length) (hne : i ≠ l.length - 1) :
    (l[i] :: (l.set i (l[l.length - 1]'(by omega))).take (l.length - 1)).Perm l := by
  have h1 := set_exchange l i hi (l[l.length - 1]'(by omega))
  generalize hx : (l[l.length - 1]'(by omega)) = x at *
  have hlen : (l.set i x).length = l.length := List.length_set
  have h2 : l.set i x = (l.set i x).take (l.length - 1) ++ [x] := by
    conv => lhs; rw [← List.take_append_drop (l.length - 1) (l.set i x)]
    congr 1
    rw [List.drop_eq_getElem_cons (by omega), List.getElem_set_ne hne, hx,
      List.drop_eq_nil_of_le (by omega)]
  rw [h2] at h1
  have h3 : (x :: l[i] :: (l.set i x).take (l.length - 1)).Perm (x :: l) := by
    refine (List.Perm.swap _ _ _).trans (List.Perm.trans (List.Perm.cons _ ?_) h1)
    exact (List.perm_append_singleton _ _).symm
  exact h3.cons_inv

theorem W_replace (l : List (Bucket τ)) (i : Nat) (hi : i < l.length) (b : Bucket τ)
    (k : Nat) (hk : k < l.length - 1) :
    W ((l.set i b).take (l.length - 1)) k = if k = i then b.when else W l k := by
  rw [← W_set b hi]
  unfold W
  rw [List.getElem?_take, if_pos hk]

theorem exc_replace (l : List (Bucket τ)) (i : Nat) (hi : i < l.length - 1) (b : Bucket τ)
    (H : Ord l.length (W l)) :
    Exc (l.length - 1) (W ((l.set i b).take (l.length - 1))) i := by
  have hE := Exc.of_ord H (h := i) (by omega)
  refine ⟨fun k k0 hk k1 k2 => ?_, fun h0 k k0 hk kp => ?_⟩
  · have := par_lt k0
    rw [W_replace l i (by omega) b k hk, W_replace l i (by omega) b (par k) (by omega), if_neg k1,
      if_neg k2]
    exact hE.1 k k0 (by omega) k1 k2
  · have := par_lt k0
    have hp := par_lt h0
    rw [W_replace l i (by omega) b k hk, W_replace l i (by omega) b (par i) (by omega),
      if_neg (by omega), if_neg (by omega)]
    exact hE.2 h0 k k0 (by omega) kp

theorem take_last_perm {α} (l : List α) (h : 0 < l.length) :
    ((l[l.length - 1]'(by omega)) :: l.take (l.length - 1)).Perm l := by
  have h2 : l = l.take (l.length - 1) ++ [(l[l.length - 1]'(by omega))] := by
    conv => lhs; rw [← List.take_append_drop (l.length - 1) l]
    congr 1
    rw [List.drop_eq_getElem_cons (by omega), List.drop_eq_nil_of_le (by omega)]
  have := (List.perm_append_singleton (l[l.length - 1]'(by omega)) (l.take (l.length - 1))).symm
  rw [← h2] at this
  exact this

theorem ord_take (l : List (Bucket τ)) (H : Ord l.length (W l)) (n : Nat) (hn : n ≤ l.length) :
    Ord n (W (l.take n)) := by
  intro k k0 hk
  have := par_lt k0
  have e : ∀ j, j < n → W (l.take n) j = W l j := by
    intro j hj; unfold W; rw [List.getElem?_take, if_pos hj]
  rw [e k hk, e _ (by omega)]
  exact H k k0 (by omega)

theorem deleteTimer_spec [DecidableEq τ] (l : List (Bucket τ)) (i : Nat) (hi : i < l.length) :
    ∃ l' j, deleteTimer l i = some (l', j) ∧ (l[i] :: l').Perm l ∧ j ≤ i ∧
      (∀ k, k < j → l'[k]? = l[k]?) ∧
      (HeapOrder l → HeapOrder l') := by
  unfold deleteTimer
  rw [List.getElem?_eq_getElem hi]
  simp only
  by_cases hne : i ≠ l.length - 1
  · rw [if_pos hne, List.getElem?_eq_getElem (show l.length - 1 < l.length by omega)]
    simp only
    have hperm := replace_perm l i hi hne
    have hexc := fun H => exc_replace l i (by omega) (l[l.length - 1]'(by omega)) H
    have hbelow : ∀ k, k < i →
        ((l.set i (l[l.length - 1]'(by omega))).take (l.length - 1))[k]? = l[k]? := by
      intro k hk
      rw [List.getElem?_take, if_pos (by omega), List.getElem?_set_ne (by omega)]
    have hlen : ((l.set i (l[l.length - 1]'(by omega))).take (l.length - 1)).length
        = l.length - 1 := by rw [List.length_take, List.length_set]; omega
    generalize (l.set i (l[l.length - 1]'(by omega))).take (l.length - 1) = r at *
    obtain ⟨t1, j, s1, s2, s3, s4, s5, s6, s7, s8⟩ := siftUp_spec r i (by omega)
    obtain ⟨t2, d1, d2, d3, d4, d5⟩ := siftDown_spec t1 i (by omega)
    rw [s1]; simp only; rw [d1]
    refine ⟨t2, j, rfl, ((d3.trans s4).cons _).trans hperm, s3, ?_, ?_⟩
    · intro k hk
      rw [d4 k (by omega), s5 k hk, hbelow k (by omega)]
    · intro H
      rw [ord_iff] at H ⊢
      have hE := hexc H
      rw [← hlen] at hE
      rw [d2]
      by_cases hj : j = i
      · have ht := s6 hj
        rw [ht] at d5 ⊢
        exact d5 hE (s8 hj)
      · have hO := s7 hE (Or.inl (by omega))
        have hO' : Ord t1.length (W t1) := by rw [s2]; exact hO
        exact d5 (Exc.of_ord hO' (by omega)) (fun h0 => hO' i h0 (by omega))
  · rw [if_neg hne]
    have hil : i = l.length - 1 := Decidable.not_not.mp hne
    refine ⟨l.take (l.length - 1), i, rfl, ?_, Nat.le_refl _, ?_, ?_⟩
    · have := take_last_perm l (by omega)
      subst hil; exact this
    · intro k hk
      rw [List.getElem?_take, if_pos (by omega)]
    · intro H
      rw [ord_iff] at H ⊢
      have := ord_take l H (l.length - 1) (by omega)
      rw [List.length_take, Nat.min_eq_left (by omega)]
      exact this

theorem deleteTimer0_spec [DecidableEq τ] (l : List (Bucket τ)) (hl : 0 < l.length) :
    ∃ l', deleteTimer0 l = some l' ∧ (l[0] :: l').Perm l ∧ (HeapOrder l → HeapOrder l') := by
  unfold deleteTimer0
  rw [List.getElem?_eq_getElem hl]
  simp only
  by_cases h1 : l.length - 1 > 0
  · rw [if_pos h1, List.getElem?_eq_getElem (show l.length - 1 < l.length by omega)]
    simp only
    have hperm := replace_perm l 0 hl (by omega)
    have hexc := fun H => exc_replace l 0 (by omega) (l[l.length - 1]'(by omega)) H
    have hlen : ((l.set 0 (l[l.length - 1]'(by omega))).take (l.length - 1)).length
        = l.length - 1 := by rw [List.length_take, List.length_set]; omega
    generalize (l.set 0 (l[l.length - 1]'(by omega))).take (l.length - 1) = r at *
    obtain ⟨t2, d1, d2, d3, d4, d5⟩ := siftDown_spec r 0 (by omega)
    refine ⟨t2, d1, (d3.cons _).trans hperm, fun H => ?_⟩
    rw [ord_iff] at H ⊢
    have hE := hexc H
    rw [← hlen] at hE
    rw [d2]
    exact d5 hE (fun h => absurd h (Nat.lt_irrefl 0))
  · rw [if_neg h1]
    refine ⟨l.take (l.length - 1), rfl, ?_, fun H => ?_⟩
    · have := take_last_perm l hl
      have e : l.length - 1 = 0 := by omega
      simp only [e] at this ⊢
      exact this
    · rw [ord_iff] at H ⊢
      have := ord_take l H (l.length - 1) (by omega)
      rw [List.length_take, Nat.min_eq_left (by omega)]
      exact this

theorem insert_spec [DecidableEq τ] (l : List (Bucket τ)) (b : Bucket τ) :
    ∃ l', insert l b = some l' ∧ l'.Perm (b :: l) ∧ (HeapOrder l → HeapOrder l') := by
  have hlen : (append l b).length = l.length + 1 := by simp [append]
  obtain ⟨t1, j, s1, s2, s3, s4, s5, s6, s7, s8⟩ := siftUp_spec (append l b) l.length (by omega)
  refine ⟨t1, ?_, ?_, fun H => ?_⟩
  · unfold insert; rw [s1]; rfl
  · exact s4.trans (List.perm_append_singleton _ _)
  · rw [ord_iff] at H ⊢
    rw [s2]
    have e : ∀ k, k < l.length → W (append l b) k = W l k := by
      intro k hk; unfold W append; rw [List.getElem?_append_left hk]
    refine s7 ⟨fun k k0 hk k1 k2 => ?_, fun h0 k k0 hk kp => ?_⟩ (Or.inr ?_)
    · have := par_lt k0
      rw [e k (by omega), e _ (by omega)]
      exact H k k0 (by omega)
    · have := par_lt k0; omega
    · intro k k0 hk kp
      have := par_lt k0; omega

theorem root_min (l : List (Bucket τ)) (H : Ord l.length (W l)) (k : Nat) (hk : k < l.length) :
    W l 0 ≤ W l k := by
  induction k using Nat.strongRecOn with
  | _ k ih =>
  by_cases h0 : 0 < k
  · have := par_lt h0
    have h1 := ih _ this (by omega)
    have h2 := H k h0 hk
    omega
  · have : k = 0 := by omega
    subst this; omega

end Memar.Timer
