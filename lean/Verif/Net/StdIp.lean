import Verif.Http.CookieProps
import Verif.Net.AddrProps

/-!
# The standard library's reader of IPv4 addresses, beside the repository's (C35, C55)

`net.ParseIP` is called at net/http/header-set-cookie.go:353; net/ipv4/addr.go:41-71 is the repository's own reader.
-/

namespace Memar.Net.StdIp
open Memar AddrSpec Ipv4Addr

/-- `netip.parseIPv4Fields` of the standard library (called by `net.ParseIP`, net/http/header-set-cookie.go:353): the loop over the text, with the byte
before, the value and the number of digits of the octet so far, and the octets before it. -/
def fields (prev : Option Byte) (val dig : Nat) (acc : Bytes) : Bytes → Option Bytes
  | [] => if acc.length < 3 then none else some (acc ++ [BitVec.ofNat 8 val])
  | c :: s =>
    if 48#8 ≤ c ∧ c ≤ 57#8 then
      if dig = 1 ∧ val = 0 then none
      else if val * 10 + (c - 48#8).toNat > 255 then none
      else fields (some c) (val * 10 + (c - 48#8).toNat) (dig + 1) acc s
    else if c = ch '.' then
      if prev = none ∨ s = [] ∨ prev = some (ch '.') then none
      else if acc.length = 3 then none
      else fields (some c) 0 0 (acc ++ [BitVec.ofNat 8 val]) s
    else none

/-- `netip.parseIPv4` -/
def parse4 (s : Bytes) : Option Bytes := fields none 0 0 [] s

/-- The octets with dots between them. -/
def dots : Bytes → Bytes
  | [] => []
  | [v] => dec v.toNat
  | v :: vs => dec v.toNat ++ ch '.' :: dots vs

theorem digit_snoc : ∀ v < 26, ∀ d < 10, v * 10 + d < 256 →
    dec (v * 10 + d) = (if v = 0 then [] else dec v) ++ [BitVec.ofNat 8 (48 + d)] := by
  intro v _ d hd _
  split
  · subst v; rw [Nat.zero_mul, Nat.zero_add, dec_small d hd]; rfl
  · rw [dec_step _ (by omega)]
    congr 2 <;> congr 1 <;> omega

/-- What is read of the octet so far. -/
def sofar (val dig : Nat) : Bytes := if dig = 0 then [] else dec val

theorem fields_sound (s : Bytes) : ∀ (prev : Option Byte) (val dig : Nat) (acc r : Bytes),
    val < 256 → (dig = 0 → val = 0) → (val = 0 → dig ≤ 1) → (dig = 0 → s ≠ [] ∨ acc = []) → (dig = 0 → prev = none ∨ prev = some (ch '.')) →
    acc.length ≤ 3 →
    fields prev val dig acc s = some r →
    ∃ vs, r = acc ++ vs ∧ vs.length + acc.length = 4 ∧ sofar val dig ++ s = dots vs := by
  induction s with
  | nil =>
    intro prev val dig acc r hv h0 h1 hs _ ha h
    unfold fields at h
    split at h
    · cases h
    · cases h
      refine ⟨[BitVec.ofNat 8 val], rfl, by simp; omega, ?_⟩
      have hd : dig ≠ 0 := by
        intro hd
        rcases hs hd with h | h
        · exact h rfl
        · subst h; simp at *
      simp [sofar, dots, hd, Nat.mod_eq_of_lt hv]
  | cons c s ih =>
    intro prev val dig acc r hv h0 h1 hs hp ha h
    unfold fields at h
    split at h
    · rename_i hc
      split at h
      · cases h
      · rename_i hz
        split at h
        · cases h
        · rename_i hb
          obtain ⟨vs, e1, e2, e3⟩ := ih _ _ _ _ _ (by omega) (by omega) (by
            intro hv0
            have : val = 0 := by omega
            have := h1 this
            have : dig ≠ 1 := fun hh => hz ⟨hh, by omega⟩
            omega) (by omega) (by omega) ha h
          refine ⟨vs, e1, e2, ?_⟩
          rw [← e3]
          have hc' : 48 ≤ c.toNat ∧ c.toNat ≤ 57 := ⟨by simpa [BitVec.le_def] using hc.1, by simpa [BitVec.le_def] using hc.2⟩
          have hd : (c - 48#8).toNat = c.toNat - 48 := by
            rw [BitVec.toNat_sub]; simp; omega
          have he : (BitVec.ofNat 8 (48 + (c.toNat - 48)) : Byte) = c := by
            apply BitVec.eq_of_toNat_eq; simp; omega
          rw [hd] at hb ⊢
          simp only [sofar, Nat.succ_ne_zero, if_false]
          rw [digit_snoc val (by omega) (c.toNat - 48) (by omega) (by omega), he]
          by_cases hv0 : val = 0
          · have : dig = 0 := by
              have := h1 hv0
              have : dig ≠ 1 := fun hh => hz ⟨hh, hv0⟩
              omega
            simp [hv0, this]
          · have : dig ≠ 0 := fun hh => hv0 (h0 hh)
            simp [hv0, this]
    · split at h
      · rename_i hc
        subst hc
        split at h
        · cases h
        · rename_i hpre
          split at h
          · cases h
          · rename_i ha3
            obtain ⟨vs, e1, e2, e3⟩ := ih _ _ _ _ _ (by omega) (by simp) (by omega) (fun _ => .inl (fun hh => hpre (.inr (.inl hh)))) (fun _ => .inr rfl)
              (by simp; omega) h
            refine ⟨BitVec.ofNat 8 val :: vs, by simp [e1], by simp at e2 ⊢; omega, ?_⟩
            have hd : dig ≠ 0 := by
              intro hd
              rcases hp hd with h | h
              · exact hpre (.inl h)
              · exact hpre (.inr (.inr h))
            have hvs : vs ≠ [] := by
              rintro rfl
              simp at e2; omega
            cases vs with
            | nil => exact absurd rfl hvs
            | cons w ws =>
              rw [dots, ← e3]
              · simp [sofar, hd, Nat.mod_eq_of_lt hv]
              · simp
      · cases h

theorem fields_dec (v : Byte) (prev : Option Byte) (acc rest : Bytes) :
    ∃ p d, p ≠ ch '.' ∧ d ≠ 0 ∧ fields prev 0 0 acc (dec v.toNat ++ rest) = fields (some p) v.toNat d acc rest := by
  have t : ∀ d < 10, (48#8 ≤ (BitVec.ofNat 8 (48 + d) : Byte) ∧ (BitVec.ofNat 8 (48 + d) : Byte) ≤ 57#8) ∧
      ((BitVec.ofNat 8 (48 + d) : Byte) - 48#8).toNat = d ∧ (BitVec.ofNat 8 (48 + d) : Byte) ≠ ch '.' := by decide +kernel
  have hv := v.isLt
  have step : ∀ (prev : Option Byte) (val dig d : Nat) (acc s : Bytes), d < 10 → ¬ (dig = 1 ∧ val = 0) → val * 10 + d < 256 →
      fields prev val dig acc (BitVec.ofNat 8 (48 + d) :: s) = fields (some (BitVec.ofNat 8 (48 + d))) (val * 10 + d) (dig + 1) acc s := by
    intro prev val dig d acc s hd hz hb
    obtain ⟨t1, t2, _⟩ := t d hd
    rw [fields, if_pos t1, if_neg hz, t2, if_neg (by omega)]
  rw [dec_val _ hv]
  split
  · refine ⟨_, 1, (t v.toNat (by omega)).2.2, by omega, ?_⟩
    rw [List.cons_append, step _ _ _ _ _ _ (by omega) (by simp) (by omega)]
    simp
  · split
    · refine ⟨_, 2, (t (v.toNat % 10) (by omega)).2.2, by omega, ?_⟩
      rw [List.cons_append, step _ _ _ _ _ _ (by omega) (by simp) (by omega), List.cons_append, step _ _ _ _ _ _ (by omega) (by omega) (by omega)]
      congr 1; omega
    · refine ⟨_, 3, (t (v.toNat % 10) (by omega)).2.2, by omega, ?_⟩
      rw [List.cons_append, step _ _ _ _ _ _ (by omega) (by simp) (by omega), List.cons_append, step _ _ _ _ _ _ (by omega) (by omega) (by omega),
        List.cons_append, step _ _ _ _ _ _ (by omega) (by omega) (by omega)]
      congr 1; omega

theorem fields_dots (v : Byte) (vs : Bytes) : ∀ (prev : Option Byte) (acc : Bytes), vs.length + 1 + acc.length = 4 →
    fields prev 0 0 acc (dots (v :: vs)) = some (acc ++ v :: vs) := by
  induction vs generalizing v with
  | nil =>
    intro prev acc h
    obtain ⟨p, d, _, _, e⟩ := fields_dec v prev acc []
    rw [List.append_nil] at e
    rw [dots, e, fields, if_neg (by simp at h; omega)]
    simp
  | cons w ws ih =>
    intro prev acc h
    obtain ⟨p, d, hp, _, e⟩ := fields_dec v prev acc (ch '.' :: dots (w :: ws))
    have hne : dots (w :: ws) ≠ [] := by
      have := dec_len w
      intro hh
      have hl := congrArg List.length hh
      cases ws with
      | nil => simp [dots] at hl; simp [hl] at this
      | cons x xs => simp [dots] at hl
    rw [dots, e, fields, if_neg (by decide), if_pos rfl, if_neg (by simp [hp, hne]), if_neg (by simp at h; omega), ih w _ _ (by simp at h ⊢; omega)]
    · simp
    · simp

/-- The reader of the standard library takes exactly the texts of addresses. -/
theorem parse4_iff (s r : Bytes) : parse4 s = some r ↔ ∃ a b c d, r = [a, b, c, d] ∧ s = dotted a b c d := by
  constructor
  · intro h
    obtain ⟨vs, e1, e2, e3⟩ := fields_sound s none 0 0 [] r (by omega) (by simp) (by simp) (by simp) (by simp) (by simp) h
    match vs, e2 with
    | [a, b, c, d], _ => exact ⟨a, b, c, d, by simpa using e1, by simpa [sofar, dots, dotted] using e3⟩
  · rintro ⟨a, b, c, d, rfl, rfl⟩
    have := fields_dots a [b, c, d] none [] rfl
    simpa [parse4, dots, dotted] using this

/-- **C35**: every text that the standard library reads as an IPv4 address is read as the same address here, whatever the variable held before, and
the text of every address written here is one the standard library reads as that address. -/
theorem C35_standard (old : Bytes) (hold : old.length = 4) :
    (∀ s r, parse4 s = some r → Ipv4Addr.fromString old s = r) ∧
    (∀ a b c d text, Ipv4Addr.toString a b c d = some text → parse4 text = some [a, b, c, d]) := by
  refine ⟨?_, ?_⟩
  · intro s r h
    obtain ⟨a, b, c, d, rfl, rfl⟩ := (parse4_iff s r).1 h
    obtain ⟨t, h1, h2⟩ := Ipv4Addr.C35_roundtrip old hold a b c d
    rw [Ipv4Addr.C35_text] at h1
    cases h1
    exact h2
  · intro a b c d text h
    rw [Ipv4Addr.C35_text] at h
    cases h
    exact (parse4_iff _ _).2 ⟨a, b, c, d, rfl, rfl⟩

example : parse4 (bs "10.0.255.7") = some [10#8, 0#8, 255#8, 7#8] ∧ parse4 (bs "10.0.256.7") = none ∧ parse4 (bs "10.00.25.7") = none ∧
    parse4 (bs "10.0.25.") = none := by decide +kernel
example := C35_standard [1#8, 2#8, 3#8, 4#8] rfl

/-- `net.ParseIP` of a text without a colon: the first dot decides that it is read as an IPv4 address; a text without a dot is none. (A text with a
colon does not come to the call at net/http/header-set-cookie.go:353: the loop before it refuses the colon.) -/
def parseIP (s : Bytes) : Bool := (parse4 s).isSome

/-- **C55**: with the standard library's reader of addresses and no assumption: the domain check accepts exactly the host names, with or without a dot in front, of
at most 255 bytes; asking for an address at its end never makes a difference. -/
theorem C55_domain_standard (d : Bytes) :
    (Http.sanitizeCookieDomain parseIP d =
      if d ≠ [] ∧ d.length ≤ 255 ∧ (∀ l ∈ Http.Spec.labels (Http.undot d), Http.Spec.ValidLabel l) then (Http.undot d, none)
      else ([], some .badDomain)) ∧
    Http.sanitizeCookieDomain parseIP d = Http.sanitizeCookieDomain (fun _ => false) d := by
  have sane : Http.ParseIPSane parseIP := by
    intro s h
    unfold parseIP at h
    obtain ⟨r, hr⟩ := Option.isSome_iff_exists.1 h
    obtain ⟨a, b, c, e, rfl, rfl⟩ := (parse4_iff s r).1 hr
    have la := dec_len a
    have lb := dec_len b
    have lc := dec_len c
    have le := dec_len e
    have hl : (dotted a b c e).getLast? = (dec e.toNat).getLast? := by
      simp only [dotted]
      rw [List.getLast?_append, List.getLast?_cons]
      cases hd : dec e.toNat with
      | nil => rw [hd] at le; simp at le
      | cons x xs => simp [List.getLast?_cons]
    have hdig := (Ipv4Addr.dec_digits e.toNat e.isLt).1
    refine ⟨by simp [dotted]; omega, ?_, ?_, ?_⟩
    · rw [hl]; intro hh
      have := hdig _ (List.mem_of_getLast? hh)
      exact absurd this (by decide)
    · rw [hl]; intro hh
      have := hdig _ (List.mem_of_getLast? hh)
      exact absurd this (by decide)
    · intro hh
      have := congrArg List.length hh
      simp [dotted] at this
  have h1 := Http.C55_domain_exact parseIP sane d
  have h2 := Http.C55_domain_exact (fun _ => false) (by intro s h; cases h) d
  exact ⟨h1, h1.trans h2.symm⟩

example : Http.sanitizeCookieDomain parseIP (bs ".10.0.0.1") = (bs "10.0.0.1", none) ∧
    Http.sanitizeCookieDomain parseIP (bs "a.b-.c") = ([], some .badDomain) := by decide +kernel

end Memar.Net.StdIp
