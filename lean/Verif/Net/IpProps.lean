import Verif.Net.IpLayoutProps

/-!
# C34: packet checks, shared bytes and the exceptions
-/

namespace Memar.Net
open Memar Binary Binary.Spec

theorem byte_cases (P : Byte → Prop) (h : ∀ n < 256, P (BitVec.ofNat 8 n)) (b : Byte) : P b := by
  have := h b.toNat b.isLt
  simpa using this

theorem get_at (p : Bytes) (i : Nat) (h : i < p.length) : p[i]? = some p[i] :=
  List.getElem?_eq_getElem h

/-! ## IPv4 -/

namespace Ipv4

/-- C34: the check accepts a packet exactly if it has at least 40 bytes and contains the header. -/
theorem C34_ipv4_check (p : Bytes) :
    checkPacket p ≠ none ∧
    (checkPacket p = some .ok ↔ 40 ≤ p.length ∧ ∀ n, ihl p = some n → n.toNat ≤ p.length) := by
  unfold checkPacket minHeaderLen
  by_cases h : p.length < 40
  · rw [if_pos h]; simp; omega
  · rw [if_neg h, ihl, get_at p 0 (by omega)]
    simp
    omega

/-- C34: a packet that passes the check can be read without a panic. -/
theorem C34_ipv4_checked_reads (p : Bytes) (h : checkPacket p = some .ok) :
    (∀ f : Field, f.get p ≠ none) ∧ (∀ f, flag f p ≠ none) ∧ flagECT p ≠ none ∧
    version p ≠ none ∧ ihl p ≠ none ∧ dscp p ≠ none ∧ fragmentOffset p ≠ none ∧
    options p ≠ none ∧ payload p ≠ none := by
  obtain ⟨h1, h2⟩ := (C34_ipv4_check p).2.1 h
  have hf : ∀ f, flag f p ≠ none := by
    intro f
    have : f.index = 1 ∨ f.index = 6 := by cases f <;> simp [Flag.index]
    rw [flag, get_at p _ (by omega)]; simp
  refine ⟨fun f => by rw [C34_ipv4_layout f p (by omega)]; simp, hf, ?_, ?_, ?_, ?_, ?_, ?_, ?_⟩
  · unfold flagECT
    obtain ⟨a, ha⟩ := Option.ne_none_iff_exists'.1 (hf .ect0)
    rw [ha]
    simp only [Option.bind_some]
    split
    · simp
    · exact hf .ect1
  · rw [version, get_at p 0 (by omega)]; simp
  · rw [ihl, get_at p 0 (by omega)]; simp
  · rw [dscp, get_at p 1 (by omega)]; simp
  · rw [fragmentOffset, get16_eq, if_pos (by omega)]; simp
  · rw [options, sliceFrom, if_pos (by omega)]; simp
  · have h3 : ihl p = some ((p[0] &&& 0x0f#8) * 4#8) := by rw [ihl, get_at p 0 (by omega)]; rfl
    have := h2 _ h3
    simp only [payload, h3, Option.bind_some, sliceFrom, if_pos this]
    simp

example : checkPacket (0x45#8 :: List.replicate 39 0#8) = some .ok := by decide

/-- C191 is violated: packets with a complete header and less than 20 bytes of data are rejected as
too short, because the minimum is the header length of IPv6. -/
theorem C191_ipv4_short_packet_violated (p : Bytes) (h : p.length < 40) :
    checkPacket p = some .tooShort := by
  rw [checkPacket, minHeaderLen, if_pos h]

example := C191_ipv4_short_packet_violated (0x45#8 :: List.replicate 30 7#8) (by decide)

/-- C191 is violated: the options of a packet contain its whole payload. -/
theorem C191_ipv4_options_violated (p : Bytes) (n : U8) (hn : ihl p = some n) (h1 : 20 ≤ n.toNat)
    (h2 : n.toNat ≤ p.length) :
    ∃ pl, payload p = some pl ∧ options p = some (region p 20 (n.toNat - 20) ++ pl) := by
  refine ⟨p.drop n.toNat, ?_, ?_⟩
  · simp [payload, hn, sliceFrom, h2]
  · rw [options, sliceFrom, if_pos (by omega), region]
    have e : p.drop n.toNat = (p.drop 20).drop (n.toNat - 20) := by
      rw [List.drop_drop]; congr 1; omega
    rw [e, List.take_append_drop]

example := C191_ipv4_options_violated (0x46#8 :: List.replicate 43 7#8) 24 (by decide +kernel) (by decide) (by decide)

/-- C191: writing the version and then the header length makes both readable.
Missing: the fields set on their own or in another order, the length that is written, and where
the payload ends (refuted: `C191_ipv4_short_packet_violated`, `C191_ipv4_options_violated`,
`C191_ipv4_version_violated` and others). -/
theorem C191_ipv4_version_ihl_partial (p : Bytes) (v n : Nat) (hv : v < 16) (hn : n < 16)
    (h : 20 ≤ p.length) :
    ∃ p' p'', setVersion p (BitVec.ofNat 8 v) = some p' ∧
      setIHL p' (BitVec.ofNat 8 (4 * n)) = some p'' ∧
      version p'' = some (BitVec.ofNat 8 v) ∧ ihl p'' = some (BitVec.ofNat 8 (4 * n)) ∧
      SameOutside p p'' 0 1 := by
  have key : ∀ v < 16, ∀ n < 16,
      ((BitVec.ofNat 8 v <<< 4) ||| (BitVec.ofNat 8 (4 * n) / 4#8)) >>> 4 = BitVec.ofNat 8 v ∧
      (((BitVec.ofNat 8 v <<< 4) ||| (BitVec.ofNat 8 (4 * n) / 4#8)) &&& 0x0f#8) * 4#8
        = BitVec.ofNat 8 (4 * n) := by decide +kernel
  cases p with
  | nil => simp at h
  | cons a r =>
    refine ⟨(BitVec.ofNat 8 v <<< 4) :: r, _, rfl, rfl, ?_, ?_, ?_⟩
    · exact congrArg some (key v hv n hn).1
    · exact congrArg some (key v hv n hn).2
    · refine ⟨rfl, ?_⟩
      intro j hj
      cases j with
      | zero => omega
      | succ j => rfl

example : ∃ p' p'', setVersion (List.replicate 20 0xff#8) 4#8 = some p' ∧ setIHL p' 20#8 = some p'' ∧
    version p'' = some 4#8 ∧ ihl p'' = some 20#8 := ⟨_, _, rfl, rfl, by decide, by decide⟩

/-- C191 is violated: setting the version clears the header length. -/
theorem C191_ipv4_version_violated (p : Bytes) (v : U8) (h : 20 ≤ p.length) :
    ∃ p', setVersion p v = some p' ∧ ihl p' = some 0#8 := by
  cases p with
  | nil => simp at h
  | cons a r =>
    refine ⟨_, rfl, congrArg some ?_⟩
    revert v
    exact byte_cases _ (by decide +kernel)

example := C191_ipv4_version_violated (0x46#8 :: List.replicate 43 7#8) 4 (by decide)

/-- C191 is violated: a differentiated-services code point is never read back, unless it is zero;
for every packet with that byte clear. -/
theorem C191_ipv4_dscp_violated (p : Bytes) (d : Nat) (h : 20 ≤ p.length) (h0 : p[1]? = some 0#8)
    (hd : d < 64) :
    ∃ p', setDSCP p (BitVec.ofNat 8 d) = some p' ∧ dscp p' = some (BitVec.ofNat 8 (d / 16)) ∧
      (0 < d → dscp p' ≠ some (BitVec.ofNat 8 d)) := by
  have key : ∀ d < 64, ((0#8 ||| (BitVec.ofNat 8 d >>> 2)) >>> 2 : Byte) = BitVec.ofNat 8 (d / 16) := by
    decide +kernel
  have e : p[1] = 0#8 := by
    rw [get_at p 1 (by omega)] at h0; exact Option.some.inj h0
  have e2 : dscp (overwrite p 1 [p[1] ||| (BitVec.ofNat 8 d >>> 2)])
      = some (BitVec.ofNat 8 (d / 16)) := by
    rw [dscp, getElem_same _ _ _ (by omega), Option.map_some, e, key d hd]
  refine ⟨_, modAt_eq p 1 _ (by omega), e2, ?_⟩
  intro hpos
  rw [e2]
  intro hh
  have := congrArg BitVec.toNat (Option.some.inj hh)
  have h16 : d / 16 < d := Nat.div_lt_self hpos (by decide)
  rw [BitVec.toNat_ofNat, BitVec.toNat_ofNat, Nat.mod_eq_of_lt (by omega),
    Nat.mod_eq_of_lt (by omega)] at this
  omega

example := C191_ipv4_dscp_violated (0x46#8 :: 0#8 :: List.replicate 42 7#8) 46 (by decide) rfl (by decide)

/-- C191 is violated: the fragment offset is never read back; whatever 13-bit offset is stored, zero
is read. -/
theorem C191_ipv4_fragment_offset_violated (p : Bytes) (v : U16) (h : 20 ≤ p.length)
    (hv : v.toNat < 8192) :
    ∃ p', setFragmentOffset p v = some p' ∧ fragmentOffset p' = some 0#16 := by
  refine ⟨_, put16_pos p 6 v (by omega), ?_⟩
  rw [fragmentOffset, get16_same _ _ _ (by omega), Option.map_some]
  congr 1
  apply BitVec.eq_of_getLsbD_eq
  intro i hi
  rw [BitVec.getLsbD_and]
  by_cases h13 : i < 13
  · have : ∀ i < 13, (0b1110000000000000#16).getLsbD i = false := by decide
    simp [this i h13]
  · have : v.getLsbD i = false := by
      rw [BitVec.getLsbD]
      apply Nat.testBit_lt_two_pow
      exact Nat.lt_of_lt_of_le hv (show 2 ^ 13 ≤ 2 ^ i from Nat.pow_le_pow_right (by decide) (by omega))
    simp [this]

example := C191_ipv4_fragment_offset_violated (0x46#8 :: List.replicate 43 7#8) 8191 (by decide) (by decide)

/-- C191 is violated: setting a fragment offset clears 'do not fragment' and 'more fragments'. -/
theorem C191_ipv4_fragment_flags_violated (p : Bytes) (v : U16) (h : 20 ≤ p.length)
    (hv : v.toNat < 8192) :
    ∃ p', setFragmentOffset p v = some p' ∧ flag .df p' = some false ∧ flag .mf p' = some false := by
  have hl := beDigits_length 2 v.toNat
  have h6 : (overwrite p 6 (beDigits 2 v.toNat))[6]? = some (BitVec.ofNat 8 (v.toNat / 256)) := by
    rw [overwrite_get _ _ _ (by omega), if_pos (by omega)]
    simp [beDigits, leDigits]
  have key : ∀ n < 32, ((BitVec.ofNat 8 n &&& 0b01000000#8 != 0#8) = false) ∧
      ((BitVec.ofNat 8 n &&& 0b00100000#8 != 0#8) = false) := by decide +kernel
  have hk := key (v.toNat / 256) (by omega)
  refine ⟨_, put16_pos p 6 v (by omega), ?_, ?_⟩
  · rw [flag, show Flag.index .df = 6 from rfl, h6, Option.map_some]
    exact congrArg some hk.1
  · rw [flag, show Flag.index .mf = 6 from rfl, h6, Option.map_some]
    exact congrArg some hk.2

example := C191_ipv4_fragment_flags_violated (0x46#8 :: List.replicate 43 0x60#8) 8191 (by decide) (by decide)

/-- C34: the three fragmentation flags are set and cleared independently and leave all other bytes
alone. -/
theorem C34_ipv4_fragment_flags (f g : Flag) (p : Bytes) (h : 20 ≤ p.length) (hf : f.index = 6)
    (hg : g.index = 6) :
    (∃ p', setFlag f p = some p' ∧ (flag g p' = if g = f then some true else flag g p) ∧
      SameOutside p p' 6 7) ∧
    (∃ p', unsetFlag f p = some p' ∧ (flag g p' = if g = f then some false else flag g p) ∧
      SameOutside p p' 6 7) := by
  have hs : ∀ b : Byte, SameOutside p (overwrite p 6 [b]) 6 7 := fun b =>
    sameOutside_overwrite p 6 [b] (by simp; omega)
  refine ⟨⟨_, modAt_eq p f.index _ (by omega), ?_, by simpa [hf] using hs _⟩,
    ⟨_, modAt_eq p f.index _ (by omega), ?_, by simpa [hf] using hs _⟩⟩
  · rw [flag, hg, ← hf, getElem_same _ _ _ (by omega), Option.map_some, flag, hg, ← hf,
      get_at p _ (by omega), Option.map_some]
    generalize p[f.index] = b
    revert b
    cases f <;> cases g <;> first | exact absurd hf (by decide) | exact absurd hg (by decide) |
      exact byte_cases _ (by decide +kernel)
  · rw [flag, hg, ← hf, getElem_same _ _ _ (by omega), Option.map_some, flag, hg, ← hf,
      get_at p _ (by omega), Option.map_some]
    generalize p[f.index] = b
    revert b
    cases f <;> cases g <;> first | exact absurd hf (by decide) | exact absurd hg (by decide) |
      exact byte_cases _ (by decide +kernel)

example := C34_ipv4_fragment_flags .df .mf (0x46#8 :: List.replicate 43 7#8) (by decide) rfl rfl

/-- C191 is violated: marking a packet as ECN-capable makes it look congested. -/
theorem C191_ipv4_ecn_violated (p : Bytes) (h : 20 ≤ p.length) :
    ∃ p', setFlagECT p = some p' ∧ flag .ce p' = some true := by
  refine ⟨_, modAt_eq p 1 _ (by omega), ?_⟩
  rw [flag, show Flag.index .ce = 1 from rfl, getElem_same _ _ _ (by omega), Option.map_some]
  congr 1
  generalize p[1] = b
  revert b
  exact byte_cases _ (by decide +kernel)

example := C191_ipv4_ecn_violated (0x46#8 :: List.replicate 43 7#8) (by decide)

end Ipv4

/-! ## IPv6 -/

namespace Ipv6

/-- C34: a packet that passes the check can be read without a panic, and consists of the header and
the payload. -/
theorem C34_ipv6_checked_reads (p : Bytes) (h : checkPacket p = .ok) :
    (∀ f : Field, f.get p ≠ none) ∧ version p ≠ none ∧ trafficClass p ≠ none ∧
    flowLabel p ≠ none ∧ payload p = some (p.drop 40) := by
  have h1 : 40 ≤ p.length := by
    unfold checkPacket headerLen at h
    split at h
    · simp at h
    · omega
  refine ⟨fun f => by rw [C34_ipv6_layout f p h1]; simp, ?_, ?_, ?_, ?_⟩
  · rw [version, get_at p 0 (by omega)]; simp
  · rw [trafficClass, get_at p 0 (by omega), get_at p 1 (by omega)]; simp
  · rw [flowLabel, getArr_eq _ _ _ (by omega), Option.bind_some,
      modAt_eq _ _ _ (by rw [region_length _ _ _ (by omega)]; decide)]
    simp
  · rw [payload, sliceFrom, if_pos h1]

example := C34_ipv6_checked_reads (0x60#8 :: List.replicate 50 7#8) (by decide +kernel)

/-- C191: writing version, traffic class and flow label in this order makes all three readable,
whatever the bytes were before, and touches nothing else.
Missing: the fields set on their own or in another order, the length that is written, and where
the payload ends (refuted: `C191_ipv4_short_packet_violated`, `C191_ipv4_options_violated`,
`C191_ipv4_version_violated` and others). -/
theorem C191_ipv6_first_word_partial (p : Bytes) (v tc : U8) (a b c : Byte) (h : 40 ≤ p.length)
    (hv : v.toNat < 16) (ha : a.toNat < 16) :
    ∃ p1 p2 p3, setVersion p v = some p1 ∧ setTrafficClass p1 tc = some p2 ∧
      setFlowLabel p2 a b c = some p3 ∧ version p3 = some v ∧ trafficClass p3 = some tc ∧
      flowLabel p3 = some [a, b, c] ∧ p3.length = p.length ∧ p3.drop 4 = p.drop 4 := by
  match p, h with
  | x0 :: x1 :: x2 :: x3 :: r, _ =>
    refine ⟨(v <<< 4) :: x1 :: x2 :: x3 :: r,
      ((v <<< 4) ||| (tc >>> 4)) :: (tc <<< 4) :: x2 :: x3 :: r,
      ((v <<< 4) ||| (tc >>> 4)) :: ((tc <<< 4) ||| a) :: b :: c :: r, by simp [setVersion, setAt],
      by simp [setTrafficClass, modAt, setAt], by simp [setFlowLabel, modAt, setAt], ?_, ?_, ?_,
      by simp, by simp⟩
    · have key : ∀ m < 16, ∀ t < 16,
          (((BitVec.ofNat 8 m) <<< 4) ||| (BitVec.ofNat 8 t)) >>> 4 = BitVec.ofNat 8 m := by
        decide +kernel
      have := key v.toNat hv (tc >>> 4).toNat (by
        rw [BitVec.toNat_ushiftRight, Nat.shiftRight_eq_div_pow]; have := tc.isLt; omega)
      simp only [BitVec.ofNat_toNat, BitVec.setWidth_eq] at this
      simp [version, this]
    · have key : ∀ m < 16, ∀ n < 16, ∀ t < 256,
          ((((BitVec.ofNat 8 m) <<< 4) ||| ((BitVec.ofNat 8 t) >>> 4)) <<< 4 |||
            (((BitVec.ofNat 8 t) <<< 4) ||| (BitVec.ofNat 8 n)) >>> 4) = BitVec.ofNat 8 t := by
        decide +kernel
      have := key v.toNat hv a.toNat ha tc.toNat tc.isLt
      simp only [BitVec.ofNat_toNat, BitVec.setWidth_eq] at this
      simp [trafficClass, this]
    · have key : ∀ n < 16, ∀ t < 256,
          (((BitVec.ofNat 8 t) <<< 4) ||| (BitVec.ofNat 8 n)) &&& 0x0f#8 = BitVec.ofNat 8 n := by
        decide +kernel
      have := key a.toNat ha tc.toNat tc.isLt
      simp only [BitVec.ofNat_toNat, BitVec.setWidth_eq] at this
      simp [flowLabel, getArr, sliceFrom, goCopy, modAt, setAt, this]

example : ∃ p1 p2 p3, setVersion (List.replicate 40 0xff#8) 6#8 = some p1 ∧
    setTrafficClass p1 0xa5#8 = some p2 ∧ setFlowLabel p2 0x0b#8 0xcd#8 0xef#8 = some p3 ∧
    trafficClass p3 = some 0xa5#8 ∧ flowLabel p3 = some [0x0b#8, 0xcd#8, 0xef#8] :=
  ⟨_, _, _, rfl, rfl, rfl, by decide, by decide⟩

/-- C191 is violated: setting the version clears the upper half of the traffic class. -/
theorem C191_ipv6_version_violated (p : Bytes) (v : U8) (h : 40 ≤ p.length) :
    ∃ p' tc, setVersion p v = some p' ∧ trafficClass p' = some tc ∧ tc.toNat < 16 := by
  match p, h with
  | x0 :: x1 :: r, _ =>
    refine ⟨(v <<< 4) :: x1 :: r, _, by simp [setVersion, setAt], rfl, ?_⟩
    have k1 : ((v <<< 4) <<< 4 : Byte) = 0#8 := by
      revert v
      exact byte_cases _ (by decide +kernel)
    rw [k1]
    have := x1.isLt
    simp [BitVec.toNat_ushiftRight, Nat.shiftRight_eq_div_pow]
    omega

example := C191_ipv6_version_violated (0x60#8 :: List.replicate 50 7#8) 6 (by decide)

/-- C191 is violated: setting the traffic class clears the upper part of the flow label. -/
theorem C191_ipv6_traffic_class_violated (p : Bytes) (tc : U8) (h : 40 ≤ p.length) :
    ∃ p' b c, setTrafficClass p tc = some p' ∧ flowLabel p' = some [0#8, b, c] := by
  match p, h with
  | x0 :: x1 :: x2 :: x3 :: r, _ =>
    refine ⟨(x0 ||| (tc >>> 4)) :: (tc <<< 4) :: x2 :: x3 :: r, x2, x3,
      by simp [setTrafficClass, modAt, setAt], ?_⟩
    have key : (tc <<< 4) &&& 0x0f#8 = 0#8 := by
      revert tc
      exact byte_cases _ (by decide +kernel)
    simp [flowLabel, getArr, sliceFrom, goCopy, modAt, setAt, key]

example := C191_ipv6_traffic_class_violated (0x60#8 :: List.replicate 50 7#8) 0xb8 (by decide)

/-- C191 is violated: a flow label cannot be replaced; bits of the first byte accumulate. -/
theorem C191_ipv6_flow_label_violated (p : Bytes) (a b c x : Byte) (l : Bytes) (h : 40 ≤ p.length)
    (hx : flowLabel p = some (x :: l)) :
    ∃ p', setFlowLabel p a b c = some p' ∧ flowLabel p' = some [x ||| (a &&& 0x0f#8), b, c] := by
  match p, h with
  | x0 :: x1 :: x2 :: x3 :: r, _ =>
    simp [flowLabel, getArr, sliceFrom, goCopy, modAt, setAt] at hx
    refine ⟨x0 :: (x1 ||| a) :: b :: c :: r, by simp [setFlowLabel, modAt, setAt], ?_⟩
    have e : (x1 ||| a) &&& 15#8 = (x1 &&& 15#8) ||| (a &&& 15#8) := by
      ext i hi
      simp
      grind
    simp [flowLabel, getArr, sliceFrom, goCopy, modAt, setAt, ← hx.1, e]

example := C191_ipv6_flow_label_violated (0x60#8 :: List.replicate 50 7#8) 1 2 3 7 [7, 7] (by decide) (by decide +kernel)

end Ipv6

/-! ## UDP -/

namespace Udp

/-- C34: a datagram that passes the check can be read without a panic. -/
theorem C34_udp_checked_reads (p : Bytes) (h : checkPacket p = some .ok) :
    (∀ f : Field, f.get p ≠ none) ∧ payload p = some (p.drop 8) ∧
    ∃ n, length p = some n ∧ n.toNat ≤ p.length := by
  unfold checkPacket minPacketLen at h
  split at h
  · simp at h
  · rename_i h8
    refine ⟨fun f => by rw [C34_udp_layout f p (by omega)]; simp, ?_, ?_⟩
    · rw [payload, sliceFrom, if_pos (by omega)]
    · rw [length, get16_eq, if_pos (by omega)] at h ⊢
      refine ⟨_, rfl, ?_⟩
      simp only [Option.map_some, Option.some.injEq] at h
      split at h
      · simp at h
      · omega

example : checkPacket [0, 1, 0, 2, 0, 9, 0, 0, 7] = some .ok := by decide

/-- C191 is violated: the length written is not the length read; the length field keeps its upper
byte and gets the upper byte of the new length as lower byte, and the checksum is damaged. -/
theorem C191_udp_set_length_violated (p : Bytes) (v : U16) (h : 8 ≤ p.length) :
    ∃ p', setLength p v = some p' ∧
      length p' = some (BitVec.ofNat 16 (p[4].toNat * 256 + v.toNat / 256)) ∧
      checksum p' = some (BitVec.ofNat 16 ((v.toNat % 256) * 256 + p[7].toNat)) ∧
      (v.toNat / 256 ≠ v.toNat % 256 → length p' ≠ some v) := by
  have hl := beDigits_length 2 v.toNat
  have hv := v.isLt
  have hd : beDigits 2 v.toNat = [BitVec.ofNat 8 (v.toNat / 256), BitVec.ofNat 8 v.toNat] := by
    simp [beDigits, leDigits]
  have g : ∀ j, (overwrite p 5 (beDigits 2 v.toNat))[j]?
      = if 5 ≤ j ∧ j < 7 then (beDigits 2 v.toNat)[j - 5]? else p[j]? := by
    intro j
    rw [overwrite_get _ _ _ (by omega), hl]
  have hlen := overwrite_length p 5 (beDigits 2 v.toNat) (by omega)
  have r1 : region (overwrite p 5 (beDigits 2 v.toNat)) 4 2
      = [p[4], BitVec.ofNat 8 (v.toNat / 256)] := by
    apply List.ext_getElem?
    intro j
    rw [region_get]
    match j with
    | 0 => rw [if_pos (by decide), g, if_neg (by omega), get_at p 4 (by omega)]; rfl
    | 1 => rw [if_pos (by decide), g, if_pos (by omega), hd]; rfl
    | j + 2 => rw [if_neg (by omega)]; simp
  have r2 : region (overwrite p 5 (beDigits 2 v.toNat)) 6 2
      = [BitVec.ofNat 8 v.toNat, p[7]] := by
    apply List.ext_getElem?
    intro j
    rw [region_get]
    match j with
    | 0 => rw [if_pos (by decide), g, if_pos (by omega), hd]; rfl
    | 1 => rw [if_pos (by decide), g, if_neg (by omega), get_at p 7 (by omega)]; rfl
    | j + 2 => rw [if_neg (by omega)]; simp
  have e1 : length (overwrite p 5 (beDigits 2 v.toNat))
      = some (BitVec.ofNat 16 (p[4].toNat * 256 + v.toNat / 256)) := by
    rw [length, get16_eq, hlen, if_pos (by omega), r1]
    congr 2
    simp [beVal, leVal]
    omega
  refine ⟨_, put16_pos p 5 v (by omega), e1, ?_, ?_⟩
  · rw [checksum, get16_eq, hlen, if_pos (by omega), r2]
    congr 2
    simp [beVal, leVal]
    omega
  · intro hne
    rw [e1]
    intro hh
    have h4 := p[4].isLt
    have := congrArg BitVec.toNat (Option.some.inj hh)
    rw [BitVec.toNat_ofNat] at this
    omega

example := C191_udp_set_length_violated (List.replicate 12 7#8) 0x0102 (by decide)

/-- C191 is violated: bytes after the announced length are part of the payload. -/
theorem C191_udp_payload_violated (p : Bytes) (n : U16) (hn : length p = some n) (h1 : 8 ≤ n.toNat)
    (h2 : n.toNat < p.length) :
    checkPacket p = some .ok ∧ payload p ≠ some (region p 8 (n.toNat - 8)) := by
  constructor
  · rw [checkPacket, minPacketLen, if_neg (by omega), hn, Option.map_some, if_neg (by omega)]
  · rw [payload, sliceFrom, if_pos (by omega)]
    intro e
    have := congrArg List.length (Option.some.inj e)
    rw [region_length _ _ _ (by omega)] at this
    simp at this
    omega

example := C191_udp_payload_violated ([1, 2, 3, 4, 0, 10, 0, 0] ++ bs "data") 10 (by decide +kernel) (by decide) (by decide)

/-- C191: a payload that fits is read back, followed by what was there, and the header stays.
Missing: the fields set on their own or in another order, the length that is written, and where
the payload ends (refuted: `C191_ipv4_short_packet_violated`, `C191_ipv4_options_violated`,
`C191_ipv4_version_violated` and others). -/
theorem C191_udp_payload_partial (p d : Bytes) (h : 8 + d.length ≤ p.length) :
    ∃ p', setPayload p d = some p' ∧ payload p' = some (d ++ p.drop (8 + d.length)) ∧
      p'.take 8 = p.take 8 := by
  refine ⟨_, putArr_eq p 8 d h, ?_, take_disjoint _ _ _ _ h (by omega)⟩
  rw [payload, sliceFrom, overwrite_length _ _ _ h, if_pos (by omega)]
  simp only [overwrite, List.append_assoc]
  congr 1
  exact List.drop_left' (by simp; omega)

example := C191_udp_payload_partial (List.replicate 12 7#8) [1, 2, 3] (by decide)

end Udp

/-! ## GP -/

namespace Gp

/-- C34: the check accepts exactly the frames of 33 bytes and type 4, without a panic, and they can
be read without a panic. -/
theorem C34_gp_check (f : Bytes) :
    checkFrame f ≠ none ∧
    (checkFrame f = some .ok ↔ f.length = 33 ∧ f[0]? = some 4#8) ∧
    (checkFrame f = some .ok → (∀ g : Field, g.get f ≠ none) ∧ nextFrame f = some []) := by
  unfold checkFrame frameLen frameTypeGP frameType
  by_cases h : f.length = 33
  · rw [if_neg (by omega), get_at f 0 (by omega)]
    refine ⟨by simp, ?_, ?_⟩
    · simp [h]
    · intro _
      refine ⟨fun g => by rw [C34_gp_layout g f (by omega)]; simp, ?_⟩
      rw [nextFrame, frameLen, sliceFrom, if_pos (by omega), List.drop_of_length_le (by omega)]
  · rw [if_pos h]
    refine ⟨by simp, by simp [h], by simp⟩

/-- C191 is violated: a frame followed by another frame does not pass the check. -/
theorem C191_gp_following_frame_violated (f g : Bytes) (hf : checkFrame f = some .ok) (hg : g ≠ []) :
    checkFrame (f ++ g) = some .wrongLength := by
  have h1 := ((C34_gp_check f).2.1.1 hf).1
  have h2 : 0 < g.length := List.length_pos_iff.2 hg
  rw [checkFrame, frameLen, if_pos (by simp; omega)]

example : checkFrame (4#8 :: List.replicate 32 7#8) = some .ok := by decide

end Gp

end Memar.Net
