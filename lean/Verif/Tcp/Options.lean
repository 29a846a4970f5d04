import Verif.Tcp.Props
import Verif.Tcp.Timing

/-!
# Values of TCP options, settings of a stream and its ports (C171, C172)
-/

namespace Memar.Tcp
open Memar Net Net.Tcp

/-! ## Model -/

/-- The option types with a value, as the byte slice behind the kind. -/
inductive ValueKind
  | mss | windowScale | echo | echoReply | timestamps | partialOrderProfile | cc | ccNew | ccEcho | altChecksum
  | altChecksumData
deriving DecidableEq, Repr

/-- `Length`, the same in every type: net/tcp/option-mss.go:18, net/tcp/option-window-scale.go:12,
net/tcp/option-echo.go:12, net/tcp/option-echo-reply.go:12, net/tcp/option-timestamps.go:12,
net/tcp/option-partial-order-connection-permitted.go:11, net/tcp/option-partial-order-service-profile.go:22,
net/tcp/option-cc.go:12, net/tcp/option-ccnew.go:12, net/tcp/option-ccecho.go:12, net/tcp/option-alt-checksum.go:12,
net/tcp/option-alt-checksum-data.go:12, net/tcp/option-stack-permited.go:11 -/
def optLength (o : Bytes) : Option Byte := o[0]?

/-- The value, the same in every type: `MSS` net/tcp/option-mss.go:19, `WindowScale` net/tcp/option-window-scale.go:13,
`Echo` net/tcp/option-echo.go:13, `EchoReply` net/tcp/option-echo-reply.go:13, `Timestamps`
net/tcp/option-timestamps.go:13, `PartialOrderServiceProfile` net/tcp/option-partial-order-service-profile.go:23-26,
`CC` net/tcp/option-cc.go:13, `CCNew` net/tcp/option-ccnew.go:13, `CCEcho` net/tcp/option-ccecho.go:13, `AltChecksum`
net/tcp/option-alt-checksum.go:13, `AltChecksumData` net/tcp/option-alt-checksum-data.go:13-18 -/
def optValue (_k : ValueKind) (o : Bytes) : Option U16 := get16 o 1

/-- `Process` of each option, with the stream it is for: net/tcp/option-mss.go:22-24, net/tcp/option-window-scale.go:17-19,
net/tcp/option-echo.go:16-18, net/tcp/option-echo-reply.go:16-18, net/tcp/option-timestamps.go:16-18,
net/tcp/option-partial-order-service-profile.go:29-31, net/tcp/option-cc.go:16-18, net/tcp/option-ccnew.go:16-18,
net/tcp/option-ccecho.go:16-18, net/tcp/option-alt-checksum.go:16-18, net/tcp/option-alt-checksum-data.go:13-18: all have an
empty body. -/
def process (_k : ValueKind) (_o : Bytes) (s : Stream) : Stream × Err := (s, .ok)

/-- net/tcp/stream-timing-keep_alive.go:42-44 `Enable`, `Idle`, `Interval` -/
def kaSettings (k : Checker) : Bool × Int × Int := (k.enable, k.idle, k.interval)

/-- A call of the application on the keep-alive of a stream. -/
inductive Setting
  | enable (b : Bool)
  | idle (d : Int)
  | interval (d : Int)
deriving DecidableEq, Repr

/-- net/tcp/stream-timing-keep_alive.go:46-58 `SetEnable`, `SetIdle`, `SetInterval`; the last two have empty bodies. -/
def applySetting (k : Checker) : Setting → Checker
  | .enable b => setEnable k b
  | .idle _ => k
  | .interval _ => k

/-- net/tcp/port.go:9-12 -/
structure Port where
  source : U16
  destination : U16
deriving DecidableEq, Repr

/-- net/tcp/port.go:17-26 `Init`, `Reinit` -/
def portInit (_p : Port) (source destination : U16) : Port := ⟨source, destination⟩
/-- net/tcp/port.go:27 `Deinit` -/
def portDeinit (p : Port) : Port := p

/-- net/tcp/stream.go:106-108 `CloseSending` -/
def closeSending (s : Stream) : Stream × Err := (s, .ok)

/-! ## Specification -/

/-- How many bytes the value of an option has: RFC 9293, 7323, 1072, 1693, 1644, 1146.  The second four bytes of the
timestamps are the echo reply, so that the value is the first four. -/
def valueWidth : ValueKind → Option Nat
  | .mss => some 2
  | .windowScale => some 1
  | .echo => some 4
  | .echoReply => some 4
  | .timestamps => some 4
  | .partialOrderProfile => some 1
  | .cc => some 4
  | .ccNew => some 4
  | .ccEcho => some 4
  | .altChecksum => some 1
  | .altChecksumData => none

/-- The number a field of the network holds: the first byte is the most significant. -/
def fieldValue : Bytes → Nat
  | [] => 0
  | b :: t => b.toNat * 256 ^ t.length + fieldValue t

theorem get16_two (l hi lo : Byte) (rest : Bytes) :
    get16 (l :: hi :: lo :: rest) 1 = some (BitVec.ofNat 16 (hi.toNat * 256 + lo.toNat)) := by
  rw [get16_eq, if_pos (by simp)]
  congr 1
  simp only [region, List.drop_succ_cons, List.drop_zero, List.take_succ_cons, List.take_zero]
  simp [Binary.Spec.beVal, Binary.Spec.leVal, Nat.add_comm, Nat.mul_comm]

/-! ## C171 -/

/-- **C171** (partial: this option only): the length and the value of a maximum segment size option, whatever follows
it, are those the peer sent.
Missing: the other options (refuted: `C171_one_byte_violated`, `C171_four_bytes_violated`, `C171_announced_violated`). -/
theorem C171_mss_partial (v : Bytes) (hv : v.length = 2) (rest : Bytes) :
    optLength (4#8 :: v ++ rest) = some 4#8 ∧
    (optValue .mss (4#8 :: v ++ rest)).map BitVec.toNat = some (fieldValue v) := by
  match v, hv with
  | [a, b], _ =>
    refine ⟨rfl, ?_⟩
    show (get16 (4#8 :: a :: b :: rest) 1).map _ = _
    rw [get16_two]
    have ha := a.isLt
    have hb := b.isLt
    simp only [Option.map_some, BitVec.toNat_ofNat, fieldValue, List.length_cons, List.length_nil]
    congr 1
    omega

example : (optValue .mss ([4#8, 5, 0xb4] ++ [1, 0])).map BitVec.toNat = some 1460 := by decide

/-- **C171** violated for the options with a value of one byte, as the window scale: when options follow, the value read
is 256 times the one that was sent plus the kind of the next option, and it is right only for zero before the end mark; at
the end of the options reading it panics. -/
theorem C171_one_byte_violated (k : ValueKind) (_hk : valueWidth k = some 1) (v next : Byte) (rest : Bytes) :
    (optValue k (3#8 :: v :: next :: rest)).map BitVec.toNat = some (v.toNat * 256 + next.toNat) ∧
    ((optValue k (3#8 :: v :: next :: rest)).map BitVec.toNat = some (fieldValue [v]) ↔ v = 0#8 ∧ next = 0#8) ∧
    optValue k [3#8, v] = none := by
  have hv := v.isLt
  have hn := next.isLt
  have h1 : (optValue k (3#8 :: v :: next :: rest)).map BitVec.toNat = some (v.toNat * 256 + next.toNat) := by
    rw [optValue, get16_two]
    simp only [Option.map_some, BitVec.toNat_ofNat]
    congr 1
    omega
  refine ⟨h1, ?_, ?_⟩
  · rw [h1]
    simp only [fieldValue, List.length_nil, Nat.pow_zero, Nat.mul_one, Nat.add_zero, Option.some.injEq]
    constructor
    · intro h
      have : v.toNat = 0 ∧ next.toNat = 0 := by omega
      exact ⟨BitVec.eq_of_toNat_eq this.1, BitVec.eq_of_toNat_eq this.2⟩
    · rintro ⟨rfl, rfl⟩; rfl
  · rw [optValue, get16_eq, if_neg (by simp)]

example : valueWidth .windowScale = some 1 ∧ (optValue .windowScale [3#8, 7, 1, 1]).map BitVec.toNat = some 1793 := by
  decide

/-- **C171** violated for the options with a value of four bytes, as timestamps: the lower half of the value is never read,
so that the value is right only when it is zero. -/
theorem C171_four_bytes_violated (k : ValueKind) (_hk : valueWidth k = some 4) (len : Byte) (v : Bytes) (hv : v.length = 4)
    (rest : Bytes) :
    (optValue k (len :: v ++ rest)).map BitVec.toNat = some (fieldValue v / 65536) ∧
    ((optValue k (len :: v ++ rest)).map BitVec.toNat = some (fieldValue v) ↔ fieldValue v = 0) := by
  match v, hv with
  | [a, b, c, d], _ =>
    have ha := a.isLt
    have hb := b.isLt
    have hc := c.isLt
    have hd := d.isLt
    have h1 : (optValue k (len :: [a, b, c, d] ++ rest)).map BitVec.toNat = some (fieldValue [a, b, c, d] / 65536) := by
      show (get16 (len :: a :: b :: (c :: d :: rest)) 1).map _ = _
      rw [get16_two]
      simp only [Option.map_some, BitVec.toNat_ofNat, fieldValue, List.length_cons, List.length_nil]
      congr 1
      omega
    refine ⟨h1, ?_⟩
    rw [h1, Option.some.injEq]
    omega

example : (optValue .timestamps [10#8, 0, 1, 0, 2, 0, 0, 0, 0]).map BitVec.toNat = some 1 ∧
    fieldValue [0, 1, 0, 2] = 65538 := by decide

theorem receive_mss (ins : InsertFn) (s : Stream) (seg : Bytes) (r : Stream × Err) (h : receive ins s seg = some r) :
    r.1.mss = s.mss := by
  by_cases hc : checkSegment seg = some .ok
  · rw [receive_ok ins s seg hc] at h
    have hl : ∀ r, onListen s seg = some r → r.1.mss = s.mss := by
      intro r h
      unfold onListen at h
      simp only [Option.map_eq_some_iff, Option.bind_eq_some_iff] at h
      obtain ⟨b, _, hb⟩ := h
      cases b <;> simp at hb <;> subst hb <;> rfl
    have hs : ∀ r, onSynSent s seg = some r → r.1.mss = s.mss := by
      intro r h
      unfold onSynSent at h
      simp only [Option.map_eq_some_iff, Option.bind_eq_some_iff] at h
      obtain ⟨b, _, c, _, hb⟩ := h
      cases b <;> cases c <;> simp at hb <;> subst hb <;> rfl
    have he : ∀ r, onEstablished ins s seg = some r → r.1.mss = s.mss := by
      intro r h
      unfold onEstablished at h
      simp only [Option.bind_eq_some_iff] at h
      obtain ⟨p, _, sn, _, h⟩ := h
      by_cases hn : sn = s.next
      · rw [if_pos hn] at h
        simp only [Option.map_eq_some_iff, Option.bind_eq_some_iff] at h
        obtain ⟨b, _, hb⟩ := h
        cases b <;> simp [sendACK] at hb <;> subst hb <;> rfl
      · rw [if_neg hn, Option.some.injEq] at h
        subst h
        unfold validateSequence
        split <;> rfl
    cases hst : s.status <;> rw [hst] at h <;> simp only at h
    case listen => exact hl r h
    case synSent => exact hs r h
    case established => exact he r h
    all_goals (rw [Option.some.injEq] at h; subst h; rfl)
  · obtain ⟨e, _, he⟩ := (C48_total ins s seg).2 hc
    rw [he, Option.some.injEq] at h
    subst h; rfl

/-- **C171** violated for what the peer announces: whatever segments arrive, with whatever options, a stream keeps sending
segments of 536 bytes, and handling an option of any kind changes nothing of the stream. -/
theorem C171_announced_violated (ins : InsertFn) (s0 : Stream) (segs : List Bytes) :
    (∃ s, receiveAll ins (init s0) segs = some s ∧ s.mss = 536) ∧
    (∃ s, receiveAll ins (openStream (init s0)) segs = some s ∧ s.mss = 536) ∧
    ∀ k o s, process k o s = (s, .ok) := by
  have key : ∀ (segs : List Bytes) (s : Stream), s.mss = 536 → ∃ s', receiveAll ins s segs = some s' ∧ s'.mss = 536 := by
    intro segs
    induction segs with
    | nil => intro s h; exact ⟨s, rfl, h⟩
    | cons seg segs ih =>
      intro s h
      cases hr : receive ins s seg with
      | none => exact absurd hr (C48_total ins s seg).1
      | some r =>
        obtain ⟨s', h1, h2⟩ := ih r.1 ((receive_mss ins s seg r hr).trans h)
        exact ⟨s', by rw [receiveAll, hr]; exact h1, h2⟩
  exact ⟨key _ _ rfl, key _ _ rfl, fun _ _ _ => rfl⟩

/-- A SYN segment that announces segments of 1460 bytes. -/
example : (receiveAll refusing (init ⟨0, .unset, 0#32, [], 0⟩)
    [[0, 0, 0, 0, 0, 0, 0, 7, 0, 0, 0, 0, 0x60, 2, 0, 0, 0, 0, 0, 0, 2, 4, 5, 0xb4]]).map (·.mss) = some 536 := by decide

/-! ## C172 -/

/-- **C250** (partial: whether the keep-alive is on): after any calls of the application, it is on exactly when the last
call about it said so, and as it was when none did.
Missing: the durations and closing the sending side (refuted: `C250_durations_violated`, `C250_close_sending_violated`). -/
theorem C250_enable_partial (k : Checker) (calls : List Setting) :
    (kaSettings (calls.foldl applySetting k)).1 =
      ((calls.filterMap fun (c : Setting) => match c with | .enable b => some b | _ => none).getLast?.getD k.enable) := by
  induction calls generalizing k with
  | nil => rfl
  | cons c t ih =>
    rw [List.foldl_cons, ih]
    cases c with
    | enable b =>
      simp only [List.filterMap_cons, applySetting, setEnable]
      rw [List.getLast?_cons]
      rfl
    | idle d => rfl
    | interval d => rfl

example : (kaSettings ([Setting.enable true, .idle 5, .enable false].foldl applySetting
    ⟨true, 7200, 75, 0, 0, 0⟩)).1 = false := by decide

/-- **C250** violated for the idle time and the interval: no call changes them, so that after setting another one the old
one is still reported and used. -/
theorem C250_durations_violated (k : Checker) (calls : List Setting) (d : Int) :
    (kaSettings (calls.foldl applySetting k)).2 = (kaSettings k).2 ∧
    (d ≠ k.idle → (applySetting (calls.foldl applySetting k) (.idle d)).idle ≠ d) ∧
    (d ≠ k.interval → (applySetting (calls.foldl applySetting k) (.interval d)).interval ≠ d) := by
  have h : (calls.foldl applySetting k).idle = k.idle ∧ (calls.foldl applySetting k).interval = k.interval := by
    induction calls generalizing k with
    | nil => exact ⟨rfl, rfl⟩
    | cons c t ih =>
      rw [List.foldl_cons, (ih _).1, (ih _).2]
      cases c <;> exact ⟨rfl, rfl⟩
  refine ⟨by simp only [kaSettings, h.1, h.2], ?_, ?_⟩
  · intro hd e
    exact hd ((h.1.symm.trans e).symm)
  · intro hd e
    exact hd ((h.2.symm.trans e).symm)

example : (5 : Int) ≠ (⟨true, 7200, 75, 0, 0, 0⟩ : Checker).idle := by decide

/-- **C172**: the ports of a stream are those it was last set up with, and taking it down keeps them. -/
theorem C172_ports (p : Port) (setups : List (U16 × U16)) (s d : U16) :
    (portDeinit (portInit (setups.foldl (fun p (x : U16 × U16) => portInit p x.1 x.2) p) s d)).source = s ∧
    (portDeinit (portInit (setups.foldl (fun p (x : U16 × U16) => portInit p x.1 x.2) p) s d)).destination = d :=
  ⟨rfl, rfl⟩

example : portInit ⟨1, 2⟩ 80 4000 = ⟨80, 4000⟩ := by decide

/-- **C250** violated for closing the sending side: it reports success and the stream is as before, in every state. -/
theorem C250_close_sending_violated (s : Stream) (h : s.status = .established) :
    (closeSending s).2 = .ok ∧ (closeSending s).1.status ≠ .finWait1 ∧ (closeSending s).1.status ≠ .finWait2 := by
  refine ⟨rfl, ?_, ?_⟩ <;> rw [show (closeSending s).1 = s from rfl, h] <;> decide

example : (⟨536, .established, 0#32, [], 0⟩ : Stream).status = .established := rfl

end Memar.Tcp
