import Verif.Net.IpProps
import Verif.Net.AddrProps
import Verif.Net.FramesProps
import Verif.Net.TcpProps

/-!
# Further properties of packets, addresses and frames (C33, C34, C39, C76)
-/

namespace Memar.Net

namespace Ipv4

/-- C34: options written into a packet stand from byte 20 on, and nothing else changes. -/
theorem C34_ipv4_set_options (p o : Bytes) (h : 20 + o.length ≤ p.length) :
    setOptions p o = some (p.take 20 ++ o ++ p.drop (20 + o.length)) := by
  rw [setOptions, putArr_eq _ _ _ h]
  rfl

example : setOptions (List.replicate 24 0#8) [7#8, 8#8] = some (List.replicate 20 0#8 ++ [7#8, 8#8, 0#8, 0#8]) := by decide

/-- C34: clearing the congestion marks of a packet leaves all three of them off, and changes nothing but the two marking bits of the
second byte. -/
theorem C34_ipv4_clear_ecn (p : Bytes) (h : 20 ≤ p.length) :
    ∃ p', unsetFlagECT p = some p' ∧ flag .ect0 p' = some false ∧ flag .ect1 p' = some false ∧ flag .ce p' = some false ∧
      SameOutside p p' 1 2 ∧ (p'[1]?).map (fun (b : Byte) => b.toNat / 4) = (p[1]?).map (fun (b : Byte) => b.toNat / 4) := by
  have hb : ∀ b : Byte, (b &&& ~~~Flag.ce.mask) &&& Flag.ect0.mask = 0#8 ∧ (b &&& ~~~Flag.ce.mask) &&& Flag.ect1.mask = 0#8 ∧
      (b &&& ~~~Flag.ce.mask) &&& Flag.ce.mask = 0#8 ∧ (b &&& ~~~Flag.ce.mask).toNat / 4 = b.toNat / 4 :=
    byte_cases _ (by decide +kernel)
  obtain ⟨e0, e1, e2, e3⟩ := hb p[1]
  refine ⟨_, modAt_eq p 1 _ (by omega), ?_, ?_, ?_, sameOutside_overwrite p 1 _ (by simp; omega), ?_⟩
  · rw [flag, show Flag.index .ect0 = 1 from rfl, getElem_same _ _ _ (by omega), Option.map_some, e0]; rfl
  · rw [flag, show Flag.index .ect1 = 1 from rfl, getElem_same _ _ _ (by omega), Option.map_some, e1]; rfl
  · rw [flag, show Flag.index .ce = 1 from rfl, getElem_same _ _ _ (by omega), Option.map_some, e2]; rfl
  · rw [getElem_same _ _ _ (by omega), get_at p 1 (by omega), Option.map_some, Option.map_some, e3]

example := C34_ipv4_clear_ecn (0x46#8 :: List.replicate 43 7#8) (by decide)

/-- C34: marking a packet as able to carry congestion marks sets the second-lowest bit of its second byte, whatever the byte was, and
changes nothing else: neither the lowest bit, nor the six above, nor any other byte. -/
theorem C34_ipv4_mark_ecn (p : Bytes) (h : 20 ≤ p.length) :
    ∃ p', setFlagECT p = some p' ∧ SameOutside p p' 1 2 ∧
      (p'[1]?).map (fun (b : Byte) => b.toNat / 2 % 2) = some 1 ∧
      (p'[1]?).map (fun (b : Byte) => b.toNat % 2) = (p[1]?).map (fun (b : Byte) => b.toNat % 2) ∧
      (p'[1]?).map (fun (b : Byte) => b.toNat / 4) = (p[1]?).map (fun (b : Byte) => b.toNat / 4) := by
  have hb : ∀ b : Byte, (b ||| Flag.ect0.mask).toNat / 2 % 2 = 1 ∧ (b ||| Flag.ect0.mask).toNat % 2 = b.toNat % 2 ∧
      (b ||| Flag.ect0.mask).toNat / 4 = b.toNat / 4 := byte_cases _ (by decide +kernel)
  obtain ⟨e0, e1, e2⟩ := hb p[1]
  refine ⟨_, modAt_eq p 1 _ (by omega), sameOutside_overwrite p 1 _ (by simp; omega), ?_, ?_, ?_⟩
  · rw [getElem_same _ _ _ (by omega), Option.map_some, e0]
  · rw [getElem_same _ _ _ (by omega), get_at p 1 (by omega), Option.map_some, Option.map_some, e1]
  · rw [getElem_same _ _ _ (by omega), get_at p 1 (by omega), Option.map_some, Option.map_some, e2]

example := C34_ipv4_mark_ecn (0x46#8 :: List.replicate 43 7#8) (by decide)

/-- C34: a packet is marked as able to carry congestion marks exactly when one of the two low bits of its second byte is set. -/
theorem C34_ipv4_ect_either (p : Bytes) (b : Byte) (hb : p[1]? = some b) :
    flagECT p = some (b.toNat % 4 != 0) := by
  have h : ∀ b : Byte, (if (b &&& Flag.ect0.mask != 0#8) then true else (b &&& Flag.ect1.mask != 0#8)) = (b.toNat % 4 != 0) :=
    byte_cases _ (by decide +kernel)
  rw [← h b, flagECT, flag, flag, show Flag.index .ect0 = 1 from rfl, show Flag.index .ect1 = 1 from rfl, hb]
  simp only [Option.map_some, Option.bind_some]
  cases hc : (b &&& Flag.ect0.mask != 0#8) <;> simp

example : flagECT (0x45#8 :: 2#8 :: List.replicate 18 0#8) = some true ∧ flagECT (List.replicate 20 0#8) = some false := by decide

/-- C34: a payload written into a packet stands behind the header the packet announces, and nothing else changes. -/
theorem C34_ipv4_set_payload (p d : Bytes) (n : U8) (hn : ihl p = some n) (h : n.toNat + d.length ≤ p.length) :
    setPayload p d = some (p.take n.toNat ++ d ++ p.drop (n.toNat + d.length)) := by
  rw [setPayload, hn, Option.bind_some, putArr_eq _ _ _ h]
  rfl

example := C34_ipv4_set_payload (0x46#8 :: List.replicate 43 7#8) [1, 2, 3] 24 (by decide +kernel) (by decide)

end Ipv4

namespace Ipv6

/-- C34: a payload written into an IPv6 packet stands behind the fixed header of 40 bytes, and nothing else changes. -/
theorem C34_ipv6_set_payload (p d : Bytes) (h : 40 + d.length ≤ p.length) :
    setPayload p d = some (p.take 40 ++ d ++ p.drop (40 + d.length)) := by
  rw [setPayload, putArr_eq _ _ _ h]
  rfl

example : setPayload (List.replicate 42 0#8) [7#8] = some (List.replicate 40 0#8 ++ [7#8, 0#8]) := by decide

/-- C34: an IPv6 packet passes the check exactly when it is no shorter than the fixed header of 40 bytes. -/
theorem C34_ipv6_check (p : Bytes) :
    (checkPacket p = .ok ↔ 40 ≤ p.length) ∧ (checkPacket p = .tooShort ↔ p.length < 40) := by
  unfold checkPacket headerLen
  split <;> simp <;> omega

example : checkPacket (List.replicate 40 0#8) = .ok ∧ checkPacket (List.replicate 39 0#8) = .tooShort := by decide

end Ipv6

namespace Udp

/-- C34: a UDP packet passes the check exactly when it has the 8 bytes of a header and is no shorter than the length the header gives. It
is called too short exactly when the header is incomplete, and of wrong length otherwise; the check never panics. -/
theorem C34_udp_check (p : Bytes) :
    (checkPacket p = some .tooShort ↔ p.length < 8) ∧
    (∀ n, length p = some n → 8 ≤ p.length →
      (checkPacket p = some .ok ↔ n.toNat ≤ p.length) ∧ (checkPacket p = some .wrongLength ↔ p.length < n.toNat)) ∧
    (8 ≤ p.length → ∃ n, length p = some n) := by
  have hl : 8 ≤ p.length → ∃ n, length p = some n := fun h => by
    rw [length, get16_eq p 4, if_pos (by omega)]
    exact ⟨_, rfl⟩
  refine ⟨?_, ?_, hl⟩
  · unfold checkPacket minPacketLen
    constructor
    · intro h
      apply Decidable.byContradiction
      intro hc
      rw [if_neg hc] at h
      obtain ⟨n, hn⟩ := hl (by omega)
      rw [hn, Option.map_some] at h
      split at h <;> cases h
    · intro h; rw [if_pos h]
  · intro n hn h
    have h' : ¬ p.length < 8 := by omega
    unfold checkPacket minPacketLen
    rw [if_neg h', hn, Option.map_some]
    by_cases hc : p.length < n.toNat
    · simp [hc]
    · simp [hc]; omega

example : checkPacket [0, 1, 0, 2, 0, 9, 0, 0, 7] = some .ok ∧ checkPacket [0, 1, 0, 2, 0, 10, 0, 0, 7] = some .wrongLength ∧
    checkPacket [0, 1, 0, 2, 0, 9, 0] = some .tooShort := by decide

end Udp

namespace Tcp

/-- C33: the second flag byte is set as a whole, and no other byte changes. -/
theorem C33_set_flag_bytes (s : Bytes) (f : Byte) (h : 14 ≤ s.length) :
    setFlagPartTwo s f = some (s.take 13 ++ [f] ++ s.drop 14) ∧
    setFlagPartOne s f = some (s.take 12 ++ [s[12] ||| f] ++ s.drop 13) := by
  constructor
  · rw [setFlagPartTwo, setAt, if_pos (by omega), List.set_eq_take_append_cons_drop, if_pos (by omega)]
    simp
  · rw [setFlagPartOne, modAt_eq s 12 _ (by omega)]
    rfl

example := C33_set_flag_bytes (List.replicate 24 7#8) 0x12 (by decide)

/-- C33: options written into a segment stand from byte 20 on, and nothing else changes. -/
theorem C33_set_options (s o : Bytes) (h : 20 + o.length ≤ s.length) :
    setOptions s o = some (s.take 20 ++ o ++ s.drop (20 + o.length)) := by
  rw [setOptions, putArr_eq _ _ _ h]
  rfl

example := C33_set_options (List.replicate 24 7#8) [2, 4, 5, 180] (by decide)

end Tcp

namespace Ipv6Addr

/-- C76: the unspecified address is the one whose bytes are all zero, the loopback address is `::1`, and the multicast addresses
are those of `ff00::/8`; each test says so for every address of sixteen bytes. -/
theorem C76_kinds_exact (a : Bytes) (h : a.length = 16) :
    (isUnspecified a = true ↔ ∀ b ∈ a, b = 0#8) ∧
    (isLoopback a = true ↔ (∀ i < 15, a[i]? = some 0#8) ∧ a[15]? = some 1#8) ∧
    (isMulticast a = true ↔ a.take 1 = [0xff#8]) := by
  match a, h with
  | [a0, a1, a2, a3, a4, a5, a6, a7, a8, a9, a10, a11, a12, a13, a14, a15], _ =>
    refine ⟨?_, ?_, ?_⟩
    · simp [isUnspecified, List.replicate]
    · constructor
      · intro hl
        simp only [isLoopback, List.replicate, beq_iff_eq, List.cons_append, List.nil_append, List.cons.injEq] at hl
        obtain ⟨rfl, rfl, rfl, rfl, rfl, rfl, rfl, rfl, rfl, rfl, rfl, rfl, rfl, rfl, rfl, rfl, -⟩ := hl
        exact ⟨by decide, by decide⟩
      · intro ⟨hl, h15⟩
        have e0 := hl 0 (by omega)
        have e1 := hl 1 (by omega)
        have e2 := hl 2 (by omega)
        have e3 := hl 3 (by omega)
        have e4 := hl 4 (by omega)
        have e5 := hl 5 (by omega)
        have e6 := hl 6 (by omega)
        have e7 := hl 7 (by omega)
        have e8 := hl 8 (by omega)
        have e9 := hl 9 (by omega)
        have e10 := hl 10 (by omega)
        have e11 := hl 11 (by omega)
        have e12 := hl 12 (by omega)
        have e13 := hl 13 (by omega)
        have e14 := hl 14 (by omega)
        simp at e0 e1 e2 e3 e4 e5 e6 e7 e8 e9 e10 e11 e12 e13 e14 h15
        subst_vars
        decide
    · simp [isMulticast]

example := C76_kinds_exact (List.replicate 15 0#8 ++ [1#8]) (by decide)

end Ipv6Addr

namespace Tcp

/-- The bits of bytes 12 and 13 of a segment, read as one number, most significant byte first, as RFC 9293, 3.1 and RFC 3540
draw them: the power of two each flag has in it. -/
def SegSpec.weight : Flag → Nat
  | .reserved1 => 2048
  | .reserved2 => 1024
  | .reserved3 => 512
  | .ns => 256
  | .cwr => 128
  | .ece => 64
  | .urg => 32
  | .ack => 16
  | .psh => 8
  | .rst => 4
  | .syn => 2
  | .fin => 1

/-- C32: each flag of a segment is the bit that the drawing of the header gives it: it reads as on exactly when that bit of the number in
bytes 12 and 13 is one. -/
theorem C32_flag_bits (f : Flag) (s : Bytes) (h : 20 ≤ s.length) :
    flag f s = some (decide ((256 * (s[12]'(by omega)).toNat + (s[13]'(by omega)).toNat) / SegSpec.weight f % 2 = 1)) := by
  have h12 : ∀ b : Byte, ∀ g ∈ [Flag.reserved1, .reserved2, .reserved3, .ns],
      (b &&& g.mask != 0#8) = decide (b.toNat / (SegSpec.weight g / 256) % 2 = 1) := byte_cases _ (by decide +kernel)
  have h13 : ∀ b : Byte, ∀ g ∈ [Flag.cwr, .ece, .urg, .ack, .psh, .rst, .syn, .fin],
      (b &&& g.mask != 0#8) = decide (b.toNat / SegSpec.weight g % 2 = 1) := byte_cases _ (by decide +kernel)
  have b13 : (s[13]'(by omega)).toNat < 256 := (s[13]'(by omega)).isLt
  cases f <;> simp only [flag, Flag.index, get_at s 12 (by omega), get_at s 13 (by omega), Option.map_some] <;>
    congr 1 <;>
    first
      | (rw [h12 _ _ (by simp)]; simp only [SegSpec.weight]; congr 1; apply propext; omega)
      | (rw [h13 _ _ (by simp)]; simp only [SegSpec.weight]; congr 1; apply propext; omega)

example := C32_flag_bits .syn (List.replicate 13 0#8 ++ [0x12#8] ++ List.replicate 6 0#8) (by decide)

end Tcp

namespace Frames

/-- C39: an open-stream frame names its service in the eight bytes after its first two, least byte first: that service, and no other, is
looked up. The call ends with an error when it is unknown; otherwise it goes on behind the frame. -/
theorem C39_service_looked_up (known : U64 → Bool) (b r : Bytes) (hb : b.length = 25) :
    step known ((Frame.openStream b).bytes ++ r) =
      some (if known (BitVec.ofNat 64 (Binary.Spec.leVal ((b.drop 2).take 8))) then .next r else .returned true) := by
  have e : openServiceID (b ++ r) = some (BitVec.ofNat 64 (Binary.Spec.leVal ((b.drop 2).take 8))) := by
    rw [openServiceID, sliceFrom, if_pos (by simp; omega), Option.bind_some, Binary.C01_le64_load, if_pos (by simp; omega),
      List.drop_append_of_le_length (by omega), List.take_append_of_le_length (by simp; omega)]
  have h1 : ∀ t f, sliceFrom (t :: f) 1 = some (f : Bytes) := by intro t f; simp [sliceFrom]
  have h0 : ∀ (t : Byte) f, (t :: f)[0]? = some t := fun _ _ => rfl
  rw [Frame.bytes, List.cons_append, step, if_neg (by simp), h0, h1]
  simp only [Option.bind_some]
  have e7 : nextOpen (b ++ r) = some r := by
    rw [nextOpen, sliceFrom, if_pos (by simp; omega), ← hb, List.drop_left]
  rw [e, Option.bind_some, e7]
  cases known _ <;> rfl

example : step (fun id => id == 5#64) ((Frame.openStream ([9#8, 9#8, 5#8] ++ List.replicate 22 0#8)).bytes ++ [1#8]) = some (.next [1#8]) := by
  decide

end Frames

end Memar.Net
