import Verif.Net.Addr4Lemmas
import Verif.Net.Addr6Lemmas

/-!
# C35, C76: text forms of IPv4 and IPv6 addresses

`AddrSpec` says what the texts are; the theorems here relate the code to it.
-/

namespace Memar.Net
open Memar AddrSpec

namespace Ipv4Addr

/-- C35: the text of every address is the four decimal numerals with dots between, and writing it
never panics. -/
theorem C35_text (a0 a1 a2 a3 : Byte) : toString a0 a1 a2 a3 = some (dotted a0 a1 a2 a3) := by
  have l0 := dec_len a0
  have l1 := dec_len a1
  have l2 := dec_len a2
  have l3 := dec_len a3
  unfold toString
  have h0 := octetDot_eq [] (List.replicate 15 0#8) a0 (by simp)
  simp only [List.nil_append, List.length_nil] at h0
  rw [h0]
  simp only [Option.bind_some]
  rw [octetDot_eq _ _ a1 (by simp; omega)]
  simp only [Option.bind_some]
  rw [octetDot_eq _ _ a2 (by simp; omega)]
  simp only [Option.bind_some]
  rw [ubtoa_eq _ _ a3 (by simp; omega)]
  simp only [Option.bind_some]
  rw [sliceTo, if_pos (by simp; omega)]
  congr 1
  rw [← List.length_append, List.take_left]
  simp [dotted]

example : dotted 192#8 168#8 0#8 255#8 = bs "192.168.0.255" := by decide +kernel

/-- C35: parsing the text of an address gives that address, whatever the variable held before. -/
theorem C35_roundtrip (old : Bytes) (hold : old.length = 4) (a0 a1 a2 a3 : Byte) :
    ∃ text, toString a0 a1 a2 a3 = some text ∧ fromString old text = [a0, a1, a2, a3] := by
  refine ⟨_, C35_text a0 a1 a2 a3, ?_⟩
  match old, hold with
  | [b0, b1, b2, b3], _ =>
    have nd : ¬ (48#8 ≤ ch '.' ∧ ch '.' ≤ 57#8) := by decide
    have hsep : ∀ (i : Nat) (t : Bytes), separator (i + 1) (ch '.' :: t) = some t := by
      intro i t; simp [separator]
    have h0 : separator 0 (dotted a0 a1 a2 a3) = some (dotted a0 a1 a2 a3) := by
      have := dec_len a0
      rw [dotted]
      cases hd : dec a0.toNat with
      | nil => rw [hd] at this; simp at this
      | cons c s => simp [separator]
    unfold fromString fromStringLoop
    rw [h0]
    simp only [dotted, List.append_assoc]
    rw [octet_dec a0 _ (by intro c hc; simp at hc; rw [← hc]; exact nd)]
    simp only [List.cons_append]
    unfold fromStringLoop
    rw [hsep]
    simp only [List.append_assoc]
    rw [octet_dec a1 _ (by intro c hc; simp at hc; rw [← hc]; exact nd)]
    simp only [List.cons_append]
    unfold fromStringLoop
    rw [hsep]
    simp only [List.append_assoc]
    rw [octet_dec a2 _ (by intro c hc; simp at hc; rw [← hc]; exact nd)]
    simp only
    unfold fromStringLoop
    rw [hsep]
    have h3 := octet_dec a3 [] (by simp)
    rw [List.append_nil] at h3
    simp only [h3]
    simp [fromStringLoop]

example := C35_roundtrip (List.replicate 4 9#8) (by decide) 10 0 255 7

/-- C35: distinct addresses have distinct texts. -/
theorem C35_text_injective (a0 a1 a2 a3 b0 b1 b2 b3 : Byte)
    (h : toString a0 a1 a2 a3 = toString b0 b1 b2 b3) :
    a0 = b0 ∧ a1 = b1 ∧ a2 = b2 ∧ a3 = b3 := by
  obtain ⟨t, ht, h1⟩ := C35_roundtrip [0, 0, 0, 0] rfl a0 a1 a2 a3
  obtain ⟨t', ht', h2⟩ := C35_roundtrip [0, 0, 0, 0] rfl b0 b1 b2 b3
  rw [h, ht'] at ht
  simp only [Option.some.injEq] at ht
  rw [← ht, h2] at h1
  simp at h1
  exact ⟨h1.1.symm, h1.2.1.symm, h1.2.2.1.symm, h1.2.2.2.symm⟩

example := C35_text_injective 10 0 255 7 10 0 (254 + 1) 7 rfl

/-- C35: parsing never changes the size of the address, for any text. -/
theorem C35_parse_length (old s : Bytes) : (fromString old s).length = old.length := by
  suffices h : ∀ fuel i (old s : Bytes), (fromStringLoop old i s fuel).length = old.length from h 4 0 old s
  intro fuel
  induction fuel with
  | zero => intro i old s; rfl
  | succ n ih =>
    intro i old s
    rw [fromStringLoop]
    split
    · rfl
    · split
      · rfl
      · rw [ih]; simp

/-- C255: the parser reports nothing: a text with trailing rubbish gives the same address as the
text without it, for every address and every rubbish that is not a digit. -/
theorem C255_trailing_text_violated (old : Bytes) (hold : old.length = 4) (a0 a1 a2 a3 : Byte)
    (c : Byte) (hc : ¬ (48#8 ≤ c ∧ c ≤ 57#8)) (rest : Bytes) :
    fromString old (dotted a0 a1 a2 a3 ++ c :: rest) = [a0, a1, a2, a3] := by
  match old, hold with
  | [b0, b1, b2, b3], _ =>
    have nd : ¬ (48#8 ≤ ch '.' ∧ ch '.' ≤ 57#8) := by decide
    have hsep : ∀ (i : Nat) (t : Bytes), separator (i + 1) (ch '.' :: t) = some t := by
      intro i t; simp [separator]
    have h0 : ∀ t, separator 0 (dotted a0 a1 a2 a3 ++ t) = some (dotted a0 a1 a2 a3 ++ t) := by
      intro t
      have := dec_len a0
      rw [dotted]
      cases hd : dec a0.toNat with
      | nil => rw [hd] at this; simp at this
      | cons c s => simp [separator]
    unfold fromString fromStringLoop
    rw [h0]
    simp only [dotted, List.append_assoc, List.cons_append]
    rw [octet_dec a0 _ (by intro c hc; simp at hc; rw [← hc]; exact nd)]
    simp only
    unfold fromStringLoop
    rw [hsep]
    simp only
    rw [octet_dec a1 _ (by intro c hc; simp at hc; rw [← hc]; exact nd)]
    simp only
    unfold fromStringLoop
    rw [hsep]
    simp only
    rw [octet_dec a2 _ (by intro c hc; simp at hc; rw [← hc]; exact nd)]
    simp only
    unfold fromStringLoop
    rw [hsep]
    simp only [octet_dec a3 (c :: rest) (by intro c' hc'; simp at hc'; rw [← hc']; exact hc)]
    simp [fromStringLoop]

example : fromString [0, 0, 0, 0] (bs "10.0.0.1 is home") = [10#8, 0#8, 0#8, 1#8] := by decide +kernel

/-- C255: a bad text leaves a mixture of the new octets and the old ones, with a nil error. -/
theorem C255_bad_text_violated :
    fromString [1, 2, 3, 4] (bs "9.9.x") = [9#8, 9#8, 3#8, 4#8] := by decide +kernel

end Ipv4Addr

namespace Ipv6Addr

/-- C203: writing an address panics, except for the unspecified address. -/
theorem C203_text_violated (a : Bytes) (ha : a.length = 16) :
    toString a = if a = List.replicate 16 0#8 then some [ch ':', ch ':'] else none := by
  match a, ha with
  | [a0, a1, a2, a3, a4, a5, a6, a7, a8, a9, a10, a11, a12, a13, a14, a15], _ =>
    obtain ⟨h1, h2⟩ := flags_table (a0 == 0#8 && a1 == 0#8) (a2 == 0#8 && a3 == 0#8)
      (a4 == 0#8 && a5 == 0#8) (a6 == 0#8 && a7 == 0#8) (a8 == 0#8 && a9 == 0#8)
      (a10 == 0#8 && a11 == 0#8) (a12 == 0#8 && a13 == 0#8) (a14 == 0#8 && a15 == 0#8)
    unfold toString
    rw [printLoop_first _ _ (by exact h1)]
    simp only [zeroGroups]
    simp only [h2, List.replicate]
    simp only [Bool.and_eq_true, beq_iff_eq, List.cons.injEq, and_true, and_assoc]

example : toString (List.replicate 15 0#8 ++ [1#8]) = none := by
  rw [C203_text_violated _ rfl]; decide

/-- C76: the full form: eight groups of one to four hexadecimal digits (either case) with colons
between give the sixteen bytes, whatever the variable held before. -/
theorem C76_parse_full (old : Bytes) (hold : old.length = 16) (gs : List Bytes) (vs : List Nat)
    (h : Groups gs vs) (hn : gs.length = 8) : fromString old (join gs) = bytesOf vs := by
  have hne : gs ≠ [] := by intro e; simp [e] at hn
  have hlen : vs.length = 8 := by
    rw [← hn]; clear hn hne
    induction h with
    | nil => rfl
    | cons _ _ ih => simp [ih]
  have hj := join_head h hne
  have htake : (join gs).take 2 ≠ [ch ':', ch ':'] := by
    intro e
    have := hj.2 []
    apply this
    rw [List.append_nil]
    cases hg : join gs with
    | nil => rw [hg] at e; simp at e
    | cons c s => rw [hg] at e; simp at e; simp [e.1]
  rw [fromString, if_neg htake, parse_end h hne old 0 none 8 (by omega) (by omega)]
  have hs := storeAll_eq vs [] old [] (by omega)
  simp only [List.nil_append, List.append_nil, List.length_nil] at hs
  rw [finish, if_neg (by simp), if_neg (by omega), hs]

example := C76_parse_full (List.replicate 16 9#8) (by decide) (List.replicate 8 (bs "Db8")) (List.replicate 8 0xdb8)
  (have h : IsGroup (bs "Db8") 0xdb8 := ⟨by decide, by decide, by decide +kernel⟩
   .cons h (.cons h (.cons h (.cons h (.cons h (.cons h (.cons h (.cons h .nil)))))))) rfl

/-- C76: a text with one `::`: the groups before it, zeros, the groups after it.  At least one group
must be written and at least one left out. -/
theorem C76_parse_ellipsis (old : Bytes) (hold : old.length = 16) (ls rs : List Bytes)
    (us vs : List Nat) (hl : Groups ls us) (hr : Groups rs vs)
    (h1 : 1 ≤ ls.length + rs.length) (h7 : ls.length + rs.length ≤ 7) :
    fromString old (join ls ++ ch ':' :: ch ':' :: join rs)
      = bytesOf us ++ List.replicate (16 - 2 * (ls.length + rs.length)) 0#8 ++ bytesOf vs := by
  have lenU : us.length = ls.length := by
    clear h1 h7
    induction hl with
    | nil => rfl
    | cons _ _ ih => simp [ih]
  have lenV : vs.length = rs.length := by
    clear h1 h7
    induction hr with
    | nil => rfl
    | cons _ _ ih => simp [ih]
  have bU := bytesOf_length us
  have bV := bytesOf_length vs
  -- the variable, cut at the positions of the groups
  obtain ⟨x, y, z, rfl, hx, hy⟩ : ∃ x y z : Bytes, old = x ++ y ++ z ∧ x.length = 2 * us.length ∧
      y.length = 2 * vs.length := by
    refine ⟨old.take (2 * us.length), (old.drop (2 * us.length)).take (2 * vs.length),
      (old.drop (2 * us.length)).drop (2 * vs.length), ?_, ?_, ?_⟩
    · rw [List.append_assoc, List.take_append_drop, List.take_append_drop]
    · simp; omega
    · simp; omega
  simp only [List.length_append] at hold
  have hz : z.length = 16 - 2 * (ls.length + rs.length) := by omega
  have sL : storeAll (x ++ y ++ z) 0 us = bytesOf us ++ y ++ z := by
    have := storeAll_eq us [] x (y ++ z) hx
    simpa using this
  have sR : storeAll (bytesOf us ++ y ++ z) (bytesOf us).length vs = bytesOf us ++ bytesOf vs ++ z :=
    storeAll_eq vs (bytesOf us) y z hy
  have fin : finish (.done (bytesOf us ++ bytesOf vs ++ z) (2 * (ls.length + rs.length))
      (some (2 * ls.length)) [])
      = bytesOf us ++ List.replicate (16 - 2 * (ls.length + rs.length)) 0#8 ++ bytesOf vs := by
    rw [finish, if_neg (by simp), if_pos (by omega)]
    have := expand_eq (bytesOf us) (bytesOf vs) z (by omega)
    rw [hz] at this
    rw [← this, bU, bV, lenU, lenV]
    congr 1
    omega
  rw [fromString]
  by_cases hle : ls = []
  · subst hle
    cases hl
    have hrne : rs ≠ [] := by intro e; subst e; simp at h1
    have hj := (join_head hr hrne).1
    simp only [join, List.nil_append, List.take_succ_cons, List.take_zero, List.drop_succ_cons,
      List.drop_zero]
    rw [if_pos trivial, if_neg hj, parse_end hr hrne _ 0 _ 8 (by omega) (by omega)]
    simp only [bytesOf, List.nil_append, List.length_nil, Nat.zero_add] at sL sR fin ⊢
    simp only [storeAll] at sL
    have hx0 : x = [] := by cases x <;> simp_all
    subst hx0
    simp only [List.nil_append] at sR ⊢
    rw [sR]
    exact fin
  · have hj := join_head hl hle
    have htake : (join ls ++ ch ':' :: ch ':' :: join rs).take 2 ≠ [ch ':', ch ':'] := by
      intro e
      have hh := hj.2 (ch ':' :: ch ':' :: join rs)
      cases hg : join ls with
      | nil => exact hj.1 hg
      | cons c s =>
        rw [hg] at e hh
        apply hh
        simp only [List.cons_append, List.take_succ_cons, List.cons.injEq] at e
        simp [e.1]
    rw [if_neg htake]
    have hpe := parse_ellipsis hl hle (x ++ y ++ z) 0 (join rs) (8 - ls.length) (by omega)
    rw [show 8 - ls.length + ls.length = 8 by omega] at hpe
    rw [hpe, sL]
    by_cases hre : rs = []
    · subst hre
      cases hr
      rw [if_pos (show join [] = [] from rfl)]
      simp only [bytesOf, List.length_nil, Nat.mul_zero] at hy fin ⊢
      have hy0 : y = [] := List.length_eq_zero_iff.1 hy
      subst hy0
      simpa using fin
    · rw [if_neg (join_head hr hre).1, parse_end hr hre _ _ _ _ (by omega) (by omega)]
      rw [bU, lenU] at sR
      rw [Nat.zero_add, sR, ← Nat.mul_add]
      exact fin

example : fromString (List.replicate 16 7#8) (bs "2001:Db8::9:1")
    = [0x20, 0x01, 0x0d, 0xb8, 0, 0, 0, 0, 0, 0, 0, 0, 0, 9, 0, 1] := by decide +kernel
example : Groups [bs "2001", bs "Db8"] [0x2001, 0xdb8] :=
  .cons ⟨by decide, by decide, by decide +kernel⟩ (.cons ⟨by decide, by decide, by decide +kernel⟩ .nil)

/-- C203: `"::"` should give the unspecified address; it leaves every address as it was. -/
theorem C203_unspecified_violated (old : Bytes) : fromString old (bs "::") = old := by
  rw [fromString, if_pos (by decide), if_pos (by decide)]

/-- C203: errors are not reported: fewer than eight groups without `::` are stored at the front and
the rest of the address keeps its old bytes. -/
theorem C203_short_text_violated (old : Bytes) (hold : old.length = 16) (gs : List Bytes)
    (vs : List Nat) (h : Groups gs vs) (hne : gs ≠ []) (hn : gs.length < 8) :
    fromString old (join gs) = bytesOf vs ++ old.drop (2 * gs.length) := by
  have hlen : vs.length = gs.length := by
    clear hn hne
    induction h with
    | nil => rfl
    | cons _ _ ih => simp [ih]
  have hj := join_head h hne
  have htake : (join gs).take 2 ≠ [ch ':', ch ':'] := by
    intro e
    apply hj.2 []
    rw [List.append_nil]
    cases hg : join gs with
    | nil => rw [hg] at e; simp at e
    | cons c s => rw [hg] at e; simp at e; simp [e.1]
  rw [fromString, if_neg htake, parse_end h hne old 0 none 8 (by omega) (by omega)]
  have hs := storeAll_eq vs [] (old.take (2 * gs.length)) (old.drop (2 * gs.length))
    (by simp; omega)
  simp only [List.nil_append, List.take_append_drop, List.length_nil] at hs
  rw [finish, if_neg (by simp), if_pos (by omega), hs]

example : fromString (List.replicate 16 7#8) (bs "1:2")
    = [0, 1, 0, 2, 7, 7, 7, 7, 7, 7, 7, 7, 7, 7, 7, 7] := by decide +kernel

/-- C76: the IPv4-mapped form `::ffff:a.b.c.d` in bytes. -/
theorem C76_mapped (old : Bytes) (hold : old.length = 16) (v : Bytes) (hv : v.length = 4) :
    fromIPv4 old v = List.replicate 10 0#8 ++ [0xff#8, 0xff#8] ++ v := by
  match old, hold with
  | [a0, a1, a2, a3, a4, a5, a6, a7, a8, a9, a10, a11, a12, a13, a14, a15], _ =>
    match v, hv with
    | [v0, v1, v2, v3], _ => rfl

example := C76_mapped (List.replicate 16 9#8) (by decide) [10, 0, 255, 7] rfl

/-- C76: every address has exactly one of the five kinds: unspecified, loopback, multicast,
link-local unicast, global unicast. -/
theorem C76_kinds (a : Bytes) :
    ([isUnspecified a, isLoopback a, isMulticast a, isLinkLocalUnicast a, isGlobalUnicast a].filter
      id).length = 1 := by
  have hu : isUnspecified a = true → isLoopback a = false ∧ isMulticast a = false ∧
      isLinkLocalUnicast a = false := by
    intro h
    simp only [isUnspecified, beq_iff_eq] at h
    subst h
    decide
  have hl : isLoopback a = true → isMulticast a = false ∧ isLinkLocalUnicast a = false := by
    intro h
    simp only [isLoopback, beq_iff_eq] at h
    subst h
    decide
  have hm : isMulticast a = true → isLinkLocalUnicast a = false := by
    intro h
    simp only [isMulticast, beq_iff_eq] at h
    simp [isLinkLocalUnicast, h]
  unfold isGlobalUnicast
  cases h1 : isUnspecified a
  · cases h2 : isLoopback a
    · cases h3 : isMulticast a
      · cases h4 : isLinkLocalUnicast a <;> simp
      · simp [hm h3]
    · simp [hl h2]
  · simp [hu h1]

/-- C76: a multicast address has the scope in the low four bits of its second byte, whatever the flags in the high four bits are: one is the interface,
two is the link; so no address has both scopes, and an address with one of them is of none of the other kinds. -/
theorem C76_multicast_scope (a0 a1 : Byte) (r : Bytes) :
    (isInterfaceLocalMulticast (a0 :: a1 :: r) = true ↔ a0.toNat = 0xff ∧ a1.toNat % 16 = 1) ∧
    (isLinkLocalMulticast (a0 :: a1 :: r) = true ↔ a0.toNat = 0xff ∧ a1.toNat % 16 = 2) ∧
    ((isInterfaceLocalMulticast (a0 :: a1 :: r) || isLinkLocalMulticast (a0 :: a1 :: r)) = true →
      isMulticast (a0 :: a1 :: r) = true ∧ isGlobalUnicast (a0 :: a1 :: r) = false) := by
  have h : ∀ b : Byte, ((b &&& 0x0f#8 = 0x01#8) ↔ b.toNat % 16 = 1) ∧ ((b &&& 0x0f#8 = 0x02#8) ↔ b.toNat % 16 = 2) := by
    intro b
    have : ∀ n < 256, ((BitVec.ofNat 8 n &&& 0x0f#8 = 0x01#8) ↔ n % 16 = 1) ∧
      ((BitVec.ofNat 8 n &&& 0x0f#8 = 0x02#8) ↔ n % 16 = 2) := by decide +kernel
    have := this b.toNat b.isLt
    simpa using this
  have e : a0 = 0xff#8 ↔ a0.toNat = 0xff := by
    constructor
    · intro h; simp [h]
    · intro h; apply BitVec.eq_of_toNat_eq; simp [h]
  have hi : isInterfaceLocalMulticast (a0 :: a1 :: r) = true ↔ a0.toNat = 0xff ∧ a1.toNat % 16 = 1 := by
    simp only [isInterfaceLocalMulticast, Bool.and_eq_true, beq_iff_eq, List.getElem?_cons_zero,
      List.getElem?_cons_succ, Option.map_some, Option.some.injEq, (h a1).1, e]
  have hl : isLinkLocalMulticast (a0 :: a1 :: r) = true ↔ a0.toNat = 0xff ∧ a1.toNat % 16 = 2 := by
    simp only [isLinkLocalMulticast, Bool.and_eq_true, beq_iff_eq, List.getElem?_cons_zero,
      List.getElem?_cons_succ, Option.map_some, Option.some.injEq, (h a1).2, e]
  refine ⟨hi, hl, fun ho => ?_⟩
  have h0 : a0 = 0xff#8 := by
    rw [Bool.or_eq_true, hi, hl] at ho
    rcases ho with ho | ho <;> exact e.2 ho.1
  subst h0
  exact ⟨rfl, by simp [isGlobalUnicast, isMulticast]⟩

example : isLinkLocalMulticast (0xff#8 :: 0x12#8 :: List.replicate 14 1#8) = true := by decide +kernel

/-- C76: link-local unicast is the prefix `fe80::/10`. -/
theorem C76_link_local (a0 a1 : Byte) (r : Bytes) :
    isLinkLocalUnicast (a0 :: a1 :: r) = true ↔
      (a0.toNat * 256 + a1.toNat) / 64 = 0xfe80 / 64 := by
  have h : ∀ a1 : Byte, (a1 &&& 0xc0#8 = 0x80#8) ↔ a1.toNat / 64 = 2 := by
    intro a1
    have : ∀ n < 256, (BitVec.ofNat 8 n &&& 0xc0#8 = 0x80#8) ↔ n / 64 = 2 := by decide +kernel
    have := this a1.toNat a1.isLt
    simpa using this
  have e : a0 = 0xfe#8 ↔ a0.toNat = 0xfe := by
    constructor
    · intro h; simp [h]
    · intro h; apply BitVec.eq_of_toNat_eq; simp [h]
  have l0 := a0.isLt
  have l1 := a1.isLt
  simp only [isLinkLocalUnicast, Bool.and_eq_true, beq_iff_eq, List.getElem?_cons_zero,
    Option.some.injEq, List.getElem?_cons_succ, Option.map_some, h, e]
  omega

end Ipv6Addr
end Memar.Net
