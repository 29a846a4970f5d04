import Verif.Net.AddrModel
import Verif.Net.AddrSpec
import Verif.BaseLemmas

namespace Memar.Net.Ipv6Addr
open Memar AddrSpec

theorem printLoop_first (addr : Bytes) (e : Int × Int) (he : e.2 - e.1 > 2 ∨ e = (-1, -1)) (fuel : Nat) :
    printLoop addr e [] 0 (fuel + 1) =
      if e.1 = 0 ∧ e.2 ≥ 16 then some [ch ':', ch ':'] else none := by
  rw [printLoop, if_pos (by omega)]
  by_cases h0 : e.1 = 0
  · rw [if_pos (by omega)]
    by_cases h1 : e.2 ≥ 16
    · rw [if_pos h1, if_pos ⟨h0, h1⟩]; rfl
    · have h2 : e.2 > 2 := by
        rcases he with h | h
        · omega
        · rw [h] at h0; simp at h0
      rw [if_neg h1, if_neg (fun h => h1 h.2), putGroup, setAt, if_neg (by simp; omega)]
      rfl
  · rw [if_neg (by omega : ¬ ((0 : Nat) : Int) = e.1),
      if_neg (fun h : e.1 = 0 ∧ e.2 ≥ 16 => h0 h.1)]
    simp [putGroup, setAt]

theorem flags_table : ∀ a b c d e f g h : Bool,
    ((ellipsis [a, b, c, d, e, f, g, h]).2 - (ellipsis [a, b, c, d, e, f, g, h]).1 > 2 ∨
      ellipsis [a, b, c, d, e, f, g, h] = (-1, -1)) ∧
    (((ellipsis [a, b, c, d, e, f, g, h]).1 = 0 ∧ (ellipsis [a, b, c, d, e, f, g, h]).2 ≥ 16) ↔
      (a && b && c && d && e && f && g && h) = true) := by decide +kernel

/-- The loop of `xtoi` on a hexadecimal numeral. -/
theorem xtoiLoop_hex (g : Bytes) (n i v : Nat) (rest : Bytes) (h : hexVal n g = some v)
    (hb : v < 0xFFFFFF) :
    xtoiLoop n i (g ++ rest) = xtoiLoop v (i + g.length) rest := by
  induction g generalizing n i with
  | nil => simp [hexVal] at h; simp [h]
  | cons c s ih =>
    have hmono : ∀ (s : Bytes) (m : Nat), hexVal m s = some v → m ≤ v := by
      intro s
      induction s with
      | nil => intro m hm; simp [hexVal] at hm; omega
      | cons c s ih =>
        intro m hm
        simp only [hexVal, Option.bind_eq_some_iff] at hm
        obtain ⟨d, _, hm⟩ := hm
        have := ih _ hm
        omega
    simp only [hexVal, Option.bind_eq_some_iff] at h
    obtain ⟨d, hd, h⟩ := h
    have hle := hmono _ _ h
    have hc := c.isLt
    rw [List.cons_append, xtoiLoop]
    simp only [hexDigit] at hd
    have e1 : (48#8 ≤ c ∧ c ≤ 57#8) ↔ (48 ≤ c.toNat ∧ c.toNat ≤ 57) := by
      simp [BitVec.le_def]
    have e2 : (97#8 ≤ c ∧ c ≤ 102#8) ↔ (97 ≤ c.toNat ∧ c.toNat ≤ 102) := by
      simp [BitVec.le_def]
    have e3 : (65#8 ≤ c ∧ c ≤ 70#8) ↔ (65 ≤ c.toNat ∧ c.toNat ≤ 70) := by
      simp [BitVec.le_def]
    split at hd
    · next h1 =>
      have hs : (c - 48#8).toNat = d := by simp at hd; rw [BitVec.toNat_sub]; simp; omega
      rw [if_pos (e1.2 h1), hs, if_neg (by omega), ih _ _ h]
      simp only [List.length_cons]; congr 1; omega
    · next h1 =>
      rw [if_neg (fun x => h1 (e1.1 x))]
      split at hd
      · next h2 =>
        have hs : (c - 97#8).toNat + 10 = d := by simp at hd; rw [BitVec.toNat_sub]; simp; omega
        rw [if_pos (e2.2 h2), hs, if_neg (by omega), ih _ _ h]
        simp only [List.length_cons]; congr 1; omega
      · next h2 =>
        rw [if_neg (fun x => h2 (e2.1 x))]
        split at hd
        · next h3 =>
          have hs : (c - 65#8).toNat + 10 = d := by simp at hd; rw [BitVec.toNat_sub]; simp; omega
          rw [if_pos (e3.2 h3), hs, if_neg (by omega), ih _ _ h]
          simp only [List.length_cons]; congr 1; omega
        · simp at hd

theorem hexVal_bound (g : Bytes) (n v : Nat) (h : hexVal n g = some v) :
    v < (n + 1) * 16 ^ g.length := by
  induction g generalizing n with
  | nil => simp [hexVal] at h; simp; omega
  | cons c s ih =>
    simp only [hexVal, Option.bind_eq_some_iff] at h
    obtain ⟨d, hd, h⟩ := h
    have hd16 : d < 16 := by
      simp only [hexDigit] at hd
      split at hd
      · simp at hd; omega
      · split at hd
        · simp at hd; omega
        · split at hd
          · simp at hd; omega
          · simp at hd
    have := ih _ h
    rw [List.length_cons, Nat.pow_succ]
    calc v < (n * 16 + d + 1) * 16 ^ s.length := this
      _ ≤ ((n + 1) * 16) * 16 ^ s.length := Nat.mul_le_mul_right _ (by omega)
      _ = (n + 1) * (16 ^ s.length * 16) := by rw [Nat.mul_assoc, Nat.mul_comm 16]

theorem group_lt {g v} (h : IsGroup g v) : v < 65536 := by
  obtain ⟨_, h2, h3⟩ := h
  have := hexVal_bound g 0 v h3
  have h4 : 16 ^ g.length ≤ 16 ^ 4 := Nat.pow_le_pow_right (by omega) h2
  omega

theorem xtoi_group {g v} (h : IsGroup g v) (rest : Bytes)
    (hr : rest = [] ∨ rest.head? = some (ch ':')) : xtoi (g ++ rest) = (v, g.length, true) := by
  have hv := group_lt h
  obtain ⟨h1, h2, h3⟩ := h
  rw [xtoi, xtoiLoop_hex g 0 0 v rest h3 (by omega)]
  rcases hr with rfl | hr
  · rw [xtoiLoop, if_neg (by omega)]; simp
  · cases rest with
    | nil => simp at hr
    | cons c s =>
      simp at hr
      subst hr
      rw [xtoiLoop, if_neg (by decide), if_neg (by decide), if_neg (by decide), if_neg (by omega)]
      simp

/-- The address after storing groups from byte `i` on. -/
def storeAll (addr : Bytes) (i : Nat) : List Nat → Bytes
  | [] => addr
  | v :: vs => storeAll (parseLoop.store addr i v) (i + 2) vs

theorem join_cons2 (g g' : Bytes) (gs : List Bytes) :
    join (g :: g' :: gs) = g ++ ch ':' :: join (g' :: gs) := rfl

theorem group_head {g v} (h : IsGroup g v) : g ≠ [] ∧ ∀ t, (g ++ t).head? ≠ some (ch ':') := by
  obtain ⟨h1, _, h3⟩ := h
  cases g with
  | nil => simp at h1
  | cons c s =>
    refine ⟨by simp, fun t ht => ?_⟩
    simp at ht
    subst ht
    simp [hexVal, hexDigit, ch] at h3

theorem join_head {gs vs} (h : Groups gs vs) (hne : gs ≠ []) :
    join gs ≠ [] ∧ ∀ t, (join gs ++ t).head? ≠ some (ch ':') := by
  cases h with
  | nil => exact absurd rfl hne
  | @cons g v gs vs hg hgs =>
    have := group_head hg
    cases gs with
    | nil => exact this
    | cons g' gs =>
      rw [join_cons2]
      refine ⟨by simp [this.1], fun t => ?_⟩
      rw [List.append_assoc]
      exact this.2 _

/-- Groups up to the end of the text. -/
theorem parse_end {gs vs} (h : Groups gs vs) (hne : gs ≠ []) (addr : Bytes) (i : Nat) (e : Option Nat)
    (fuel : Nat) (hi : i + 2 * gs.length ≤ 16) (hf : gs.length ≤ fuel) :
    parseLoop addr i e (join gs) fuel = .done (storeAll addr i vs) (i + 2 * gs.length) e [] := by
  induction h generalizing addr i fuel with
  | nil => exact absurd rfl hne
  | @cons g v gs vs hg hgs ih =>
    simp only [List.length_cons] at hi hf
    match fuel, hf with
    | fuel + 1, hf =>
      have hv := group_lt hg
      rw [parseLoop, if_pos (by omega)]
      cases gs with
      | nil =>
        have hx := xtoi_group hg [] (Or.inl rfl)
        rw [List.append_nil] at hx
        cases hgs
        simp only [join, hx, List.drop_length]
        rw [if_neg (by simp; omega)]
        simp [storeAll]
      | cons g' gs =>
        have hx := xtoi_group hg (ch ':' :: join (g' :: gs)) (Or.inr rfl)
        have hj := join_head hgs (by simp)
        rw [join_cons2]
        simp only [hx, List.drop_left]
        rw [if_neg (by simp; omega), if_neg (by simp [hj.1]), if_neg (by have := hj.2 []; simpa using this),
          ih (by simp) _ _ _ (by simp at hi ⊢; omega) (by simp at hf ⊢; omega)]
        simp only [storeAll, List.length_cons]
        congr 1; omega

/-- Groups up to an ellipsis. -/
theorem parse_ellipsis {gs vs} (h : Groups gs vs) (hne : gs ≠ []) (addr : Bytes) (i : Nat)
    (t : Bytes) (fuel : Nat) (hi : i + 2 * gs.length ≤ 16) :
    parseLoop addr i none (join gs ++ ch ':' :: ch ':' :: t) (fuel + gs.length)
      = if t = [] then .done (storeAll addr i vs) (i + 2 * gs.length) (some (i + 2 * gs.length)) []
        else parseLoop (storeAll addr i vs) (i + 2 * gs.length) (some (i + 2 * gs.length)) t fuel := by
  induction h generalizing addr i with
  | nil => exact absurd rfl hne
  | @cons g v gs vs hg hgs ih =>
    simp only [List.length_cons] at hi
    have hv := group_lt hg
    rw [List.length_cons, ← Nat.add_assoc, parseLoop, if_pos (by omega)]
    cases gs with
    | nil =>
      have hx := xtoi_group hg (ch ':' :: ch ':' :: t) (Or.inr rfl)
      cases hgs
      simp only [join, hx, List.drop_left]
      rw [if_neg (by simp; omega), if_neg (by simp), if_pos (by simp), if_neg (by simp)]
      by_cases ht : t = [] <;> simp [storeAll, ht]
    | cons g' gs =>
      have hx := xtoi_group hg (ch ':' :: (join (g' :: gs) ++ ch ':' :: ch ':' :: t)) (Or.inr rfl)
      have hj := join_head hgs (by simp)
      rw [join_cons2, List.append_assoc, List.cons_append]
      simp only [hx, List.drop_left]
      rw [if_neg (by simp; omega), if_neg (by simp), if_neg (hj.2 _),
        ih (by simp) _ _ (by simp at hi ⊢; omega)]
      simp only [storeAll, List.length_cons]
      rw [show i + 2 + 2 * (gs.length + 1) = i + 2 * (gs.length + 1 + 1) by omega]

theorem bytesOf_length (vs : List Nat) : (bytesOf vs).length = 2 * vs.length := by
  induction vs with
  | nil => rfl
  | cons v vs ih => simp [bytesOf, ih]; omega

theorem storeAll_eq (vs : List Nat) (pre mid post : Bytes) (hm : mid.length = 2 * vs.length) :
    storeAll (pre ++ mid ++ post) pre.length vs = pre ++ bytesOf vs ++ post := by
  induction vs generalizing pre mid with
  | nil => simp at hm; subst hm; simp [storeAll, bytesOf]
  | cons v vs ih =>
    match mid, hm with
    | a :: b :: mid, hm =>
      have : parseLoop.store (pre ++ a :: b :: mid ++ post) pre.length v
          = (pre ++ [BitVec.ofNat 8 (v / 256), BitVec.ofNat 8 v]) ++ mid ++ post := by
        simp [parseLoop.store, List.set_append]
      rw [storeAll, this, show pre.length + 2
        = (pre ++ [BitVec.ofNat 8 (v / 256), BitVec.ofNat 8 v]).length by simp,
        ih _ mid (by simp at hm; omega)]
      simp [bytesOf]

theorem zeroLoop_eq (pre mid post : Bytes) :
    zeroLoop (pre ++ mid ++ post) pre.length mid.length
      = pre ++ List.replicate mid.length 0#8 ++ post := by
  suffices h : ∀ (k : Nat) (mid done : Bytes), mid.length = k →
      zeroLoop (pre ++ mid ++ (done ++ post)) pre.length k
        = pre ++ List.replicate k 0#8 ++ (done ++ post) by
    have := h mid.length mid [] rfl
    simpa using this
  intro k
  induction k with
  | zero => intro mid done hm; have := List.length_eq_zero_iff.1 hm; subst this; simp [zeroLoop]
  | succ k ih =>
    intro mid done hm
    obtain ⟨m, x, rfl⟩ : ∃ m x, mid = m ++ [x] := by
      have hne : mid ≠ [] := by intro h; simp [h] at hm
      exact ⟨mid.dropLast, mid.getLast hne, (List.dropLast_concat_getLast hne).symm⟩
    have hmk : m.length = k := by simpa using hm
    have : (pre ++ (m ++ [x]) ++ (done ++ post)).set (pre.length + k) 0#8
        = pre ++ m ++ ((0#8 :: done) ++ post) := by
      simp [List.set_append, hmk]
    rw [zeroLoop, this, ih m (0#8 :: done) hmk, List.replicate_succ']
    simp

/-- Moving bytes up by `n` places, over a gap of `n` bytes. -/
theorem moveLoop_eq (pre mid gap : Bytes) :
    ∃ junk : Bytes, junk.length = gap.length ∧
      moveLoop (pre ++ mid ++ gap) gap.length pre.length mid.length = pre ++ junk ++ mid := by
  suffices h : ∀ (k : Nat) (mid gap done : Bytes), mid.length = k →
      ∃ junk : Bytes, junk.length = gap.length ∧
      moveLoop (pre ++ mid ++ (gap ++ done)) gap.length pre.length k = pre ++ junk ++ (mid ++ done) by
    obtain ⟨j, hj, h⟩ := h mid.length mid gap [] rfl
    exact ⟨j, hj, by simpa using h⟩
  intro k
  induction k with
  | zero =>
    intro mid gap done hm
    have := List.length_eq_zero_iff.1 hm
    subst this
    exact ⟨gap, rfl, by simp [moveLoop]⟩
  | succ k ih =>
    intro mid gap done hm
    obtain ⟨m, x, rfl⟩ : ∃ m x, mid = m ++ [x] := by
      have hne : mid ≠ [] := by intro h; simp [h] at hm
      exact ⟨mid.dropLast, mid.getLast hne, (List.dropLast_concat_getLast hne).symm⟩
    have hmk : m.length = k := by simpa using hm
    rw [moveLoop]
    have hget : (pre ++ (m ++ [x]) ++ (gap ++ done)).getD (pre.length + k) 0#8 = x := by
      simp [List.getElem?_append, hmk]
    rw [hget]
    have hset : (pre ++ (m ++ [x]) ++ (gap ++ done)).set (pre.length + k + gap.length) x
        = pre ++ m ++ ((x :: gap).take gap.length ++ (x :: done)) := by
      rw [List.append_assoc, List.append_assoc, List.append_assoc, List.set_append_right _ _ (by omega),
        show pre.length + k + gap.length - pre.length = m.length + gap.length by omega]
      rw [List.set_append_right _ _ (by omega),
        show m.length + gap.length - m.length = gap.length by omega]
      congr 2
      cases hg : gap.reverse with
      | nil => 
        have : gap = [] := by simpa using hg
        subst this; simp
      | cons y r =>
        have : gap = r.reverse ++ [y] := by
          have := congrArg List.reverse hg; simpa using this
        subst this
        simp [List.set_append, List.take_append]
    rw [hset]
    have hlen : ((x :: gap).take gap.length).length = gap.length := by simp
    obtain ⟨j, hj, h⟩ := ih m ((x :: gap).take gap.length) (x :: done) hmk
    rw [hlen] at h hj
    exact ⟨j, hj, by rw [h]; simp⟩

theorem expand_eq (l r gap : Bytes) (hlen : l.length + r.length + gap.length = 16) :
    expand (l ++ r ++ gap) (l.length + r.length) l.length
      = l ++ List.replicate gap.length 0#8 ++ r := by
  obtain ⟨j, hj, h⟩ := moveLoop_eq l r gap
  rw [expand, show 16 - (l.length + r.length) = gap.length by omega,
    show l.length + r.length - l.length = r.length by omega, h, ← hj, zeroLoop_eq]

end Memar.Net.Ipv6Addr
