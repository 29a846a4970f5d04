import Verif.Net.Layout
import Verif.Net.IpModel

/-!
# C34: header fields that occupy bytes of their own

For each protocol a table (`loc`) gives position, size and kind of the fields as its specification
does.  `get` and `set` name the accessors of the code.
-/

namespace Memar.Net
open Memar Binary Binary.Spec

/-! ## Ipv4 -/

/-- The independent fields of the RFC 791 header. -/
inductive Ipv4.Field
  | totalLength | identification | timeToLive | protocol | headerChecksum | sourceAddr | destinationAddr
deriving DecidableEq, Repr

/-- RFC 791: position, size and kind. -/
def Ipv4.Field.loc : Ipv4.Field → Loc
  | .totalLength => ⟨2, 2, .be⟩
  | .identification => ⟨4, 2, .raw⟩
  | .timeToLive => ⟨8, 1, .be⟩
  | .protocol => ⟨9, 1, .be⟩
  | .headerChecksum => ⟨10, 2, .raw⟩
  | .sourceAddr => ⟨12, 4, .raw⟩
  | .destinationAddr => ⟨16, 4, .raw⟩

/-- The accessor of a field. -/
def Ipv4.Field.get : Ipv4.Field → Bytes → Option Value
  | .totalLength, p => v16 (Ipv4.totalLength p)
  | .identification, p => vArr (Ipv4.identification p)
  | .timeToLive, p => v8 (Ipv4.timeToLive p)
  | .protocol, p => v8 (Ipv4.protocol p)
  | .headerChecksum, p => vArr (Ipv4.headerChecksum p)
  | .sourceAddr, p => vArr (Ipv4.sourceAddr p)
  | .destinationAddr, p => vArr (Ipv4.destinationAddr p)

/-- The setter of a field. -/
def Ipv4.Field.set : Ipv4.Field → Bytes → Value → Option Bytes
  | .totalLength, p, .num k => Ipv4.setTotalLength p (BitVec.ofNat 16 k)
  | .identification, p, .arr b => Ipv4.setIdentification p b
  | .timeToLive, p, .num k => Ipv4.setTimeToLive p (BitVec.ofNat 8 k)
  | .protocol, p, .num k => Ipv4.setProtocol p (BitVec.ofNat 8 k)
  | .headerChecksum, p, .arr b => Ipv4.setHeaderChecksum p b
  | .sourceAddr, p, .arr b => Ipv4.setSourceAddr p b
  | .destinationAddr, p, .arr b => Ipv4.setDestinationAddr p b
  | _, _, _ => none

theorem Ipv4.Field.bound (f : Ipv4.Field) : f.loc.start + f.loc.size ≤ 20 := by cases f <;> decide

theorem Ipv4.Field.disjoint (f g : Ipv4.Field) (h : f ≠ g) : f.loc.Disjoint g.loc := by
  revert h; cases f <;> cases g <;> decide

/-- C34: every accessor reads the field at the place RFC 791 gives it. -/
theorem C34_ipv4_layout (f : Ipv4.Field) (p : Bytes) (h : 20 ≤ p.length) :
    f.get p = some (f.loc.value p) := by
  have hb := f.bound
  cases f <;>
    first
      | exact v8_get _ _ (by simp only [Ipv4.Field.loc] at hb; omega)
      | exact v16_get _ _ (by simp only [Ipv4.Field.loc] at hb; omega)
      | exact v32_get _ _ (by simp only [Ipv4.Field.loc] at hb; omega)
      | exact vArr_get _ _ _ (by simp only [Ipv4.Field.loc] at hb; omega)

example := fun f => C34_ipv4_layout f (List.replicate 24 7#8) (by decide)

theorem Ipv4.Field.set_eq (f : Ipv4.Field) (p : Bytes) (v : Value) (h : 20 ≤ p.length) (hv : f.loc.Fits v) :
    f.set p v = some (f.loc.store p v) := by
  have hb := f.bound
  cases f <;> cases v <;> first | exact absurd hv.1 (by decide) | skip
  all_goals
    first
      | exact setAt_store _ _ _ (by simp only [Ipv4.Field.loc] at hb; omega) hv.2
      | exact put16_store _ _ _ (by simp only [Ipv4.Field.loc] at hb; omega) hv.2
      | exact put32_store _ _ _ (by simp only [Ipv4.Field.loc] at hb; omega) hv.2
      | exact putArr_store _ _ _ _ (by simp only [Ipv4.Field.loc] at hb; omega) hv.2

/-- C34: setting a field of a complete header succeeds for every value that fits, the field then has
the value, no other field changes, and no byte outside the field changes. -/
theorem C34_ipv4_set (f : Ipv4.Field) (p : Bytes) (v : Value) (h : 20 ≤ p.length)
    (hv : f.loc.Fits v) :
    ∃ p', f.set p v = some p' ∧ f.get p' = some v ∧ (∀ g, g ≠ f → g.get p' = g.get p) ∧
      SameOutside p p' f.loc.start (f.loc.start + f.loc.size) := by
  have hb := f.bound
  have hl := f.loc.store_length p v hv (by omega)
  refine ⟨_, f.set_eq p v h hv, ?_, ?_, f.loc.sameOutside_store p v hv (by omega)⟩
  · rw [C34_ipv4_layout f _ (by omega), f.loc.value_store p v hv (by omega)]
  · intro g hg
    rw [C34_ipv4_layout g _ (by omega), C34_ipv4_layout g p h,
      f.loc.value_store_disjoint g.loc p v hv (by omega) (f.disjoint g (Ne.symm hg))]

example : (Ipv4.Field.totalLength).loc.Fits (.num 7) ∧
    ((Ipv4.Field.totalLength).set (List.replicate 20 9#8) (.num 7)).bind (Ipv4.Field.totalLength).get = some (.num 7) := by
  refine ⟨⟨rfl, by decide⟩, by decide +kernel⟩

/-! ## Ipv6 -/

/-- The independent fields of the RFC 8200 header. -/
inductive Ipv6.Field
  | payloadLength | nextHeader | hopLimit | sourceAddr | destinationAddr
deriving DecidableEq, Repr

/-- RFC 8200: position, size and kind. -/
def Ipv6.Field.loc : Ipv6.Field → Loc
  | .payloadLength => ⟨4, 2, .be⟩
  | .nextHeader => ⟨6, 1, .be⟩
  | .hopLimit => ⟨7, 1, .be⟩
  | .sourceAddr => ⟨8, 16, .raw⟩
  | .destinationAddr => ⟨24, 16, .raw⟩

/-- The accessor of a field. -/
def Ipv6.Field.get : Ipv6.Field → Bytes → Option Value
  | .payloadLength, p => v16 (Ipv6.payloadLength p)
  | .nextHeader, p => v8 (Ipv6.nextHeader p)
  | .hopLimit, p => v8 (Ipv6.hopLimit p)
  | .sourceAddr, p => vArr (Ipv6.sourceAddr p)
  | .destinationAddr, p => vArr (Ipv6.destinationAddr p)

/-- The setter of a field. -/
def Ipv6.Field.set : Ipv6.Field → Bytes → Value → Option Bytes
  | .payloadLength, p, .num k => Ipv6.setPayloadLength p (BitVec.ofNat 16 k)
  | .nextHeader, p, .num k => Ipv6.setNextHeader p (BitVec.ofNat 8 k)
  | .hopLimit, p, .num k => Ipv6.setHopLimit p (BitVec.ofNat 8 k)
  | .sourceAddr, p, .arr b => Ipv6.setSourceAddr p b
  | .destinationAddr, p, .arr b => Ipv6.setDestinationAddr p b
  | _, _, _ => none

theorem Ipv6.Field.bound (f : Ipv6.Field) : f.loc.start + f.loc.size ≤ 40 := by cases f <;> decide

theorem Ipv6.Field.disjoint (f g : Ipv6.Field) (h : f ≠ g) : f.loc.Disjoint g.loc := by
  revert h; cases f <;> cases g <;> decide

/-- C34: every accessor reads the field at the place RFC 8200 gives it. -/
theorem C34_ipv6_layout (f : Ipv6.Field) (p : Bytes) (h : 40 ≤ p.length) :
    f.get p = some (f.loc.value p) := by
  have hb := f.bound
  cases f <;>
    first
      | exact v8_get _ _ (by simp only [Ipv6.Field.loc] at hb; omega)
      | exact v16_get _ _ (by simp only [Ipv6.Field.loc] at hb; omega)
      | exact v32_get _ _ (by simp only [Ipv6.Field.loc] at hb; omega)
      | exact vArr_get _ _ _ (by simp only [Ipv6.Field.loc] at hb; omega)

example := fun f => C34_ipv6_layout f (List.replicate 48 7#8) (by decide)

theorem Ipv6.Field.set_eq (f : Ipv6.Field) (p : Bytes) (v : Value) (h : 40 ≤ p.length) (hv : f.loc.Fits v) :
    f.set p v = some (f.loc.store p v) := by
  have hb := f.bound
  cases f <;> cases v <;> first | exact absurd hv.1 (by decide) | skip
  all_goals
    first
      | exact setAt_store _ _ _ (by simp only [Ipv6.Field.loc] at hb; omega) hv.2
      | exact put16_store _ _ _ (by simp only [Ipv6.Field.loc] at hb; omega) hv.2
      | exact put32_store _ _ _ (by simp only [Ipv6.Field.loc] at hb; omega) hv.2
      | exact putArr_store _ _ _ _ (by simp only [Ipv6.Field.loc] at hb; omega) hv.2

/-- C34: setting a field of a complete header succeeds for every value that fits, the field then has
the value, no other field changes, and no byte outside the field changes. -/
theorem C34_ipv6_set (f : Ipv6.Field) (p : Bytes) (v : Value) (h : 40 ≤ p.length)
    (hv : f.loc.Fits v) :
    ∃ p', f.set p v = some p' ∧ f.get p' = some v ∧ (∀ g, g ≠ f → g.get p' = g.get p) ∧
      SameOutside p p' f.loc.start (f.loc.start + f.loc.size) := by
  have hb := f.bound
  have hl := f.loc.store_length p v hv (by omega)
  refine ⟨_, f.set_eq p v h hv, ?_, ?_, f.loc.sameOutside_store p v hv (by omega)⟩
  · rw [C34_ipv6_layout f _ (by omega), f.loc.value_store p v hv (by omega)]
  · intro g hg
    rw [C34_ipv6_layout g _ (by omega), C34_ipv6_layout g p h,
      f.loc.value_store_disjoint g.loc p v hv (by omega) (f.disjoint g (Ne.symm hg))]

example : (Ipv6.Field.payloadLength).loc.Fits (.num 7) ∧
    ((Ipv6.Field.payloadLength).set (List.replicate 40 9#8) (.num 7)).bind (Ipv6.Field.payloadLength).get = some (.num 7) := by
  refine ⟨⟨rfl, by decide⟩, by decide +kernel⟩

/-! ## Udp -/

/-- The independent fields of the RFC 768 header. -/
inductive Udp.Field
  | sourcePort | destinationPort | checksum
deriving DecidableEq, Repr

/-- RFC 768: position, size and kind. -/
def Udp.Field.loc : Udp.Field → Loc
  | .sourcePort => ⟨0, 2, .be⟩
  | .destinationPort => ⟨2, 2, .be⟩
  | .checksum => ⟨6, 2, .be⟩

/-- The accessor of a field. -/
def Udp.Field.get : Udp.Field → Bytes → Option Value
  | .sourcePort, p => v16 (Udp.sourcePort p)
  | .destinationPort, p => v16 (Udp.destinationPort p)
  | .checksum, p => v16 (Udp.checksum p)

/-- The setter of a field. -/
def Udp.Field.set : Udp.Field → Bytes → Value → Option Bytes
  | .sourcePort, p, .num k => Udp.setSourcePort p (BitVec.ofNat 16 k)
  | .destinationPort, p, .num k => Udp.setDestinationPort p (BitVec.ofNat 16 k)
  | .checksum, p, .num k => Udp.setChecksum p (BitVec.ofNat 16 k)
  | _, _, _ => none

theorem Udp.Field.bound (f : Udp.Field) : f.loc.start + f.loc.size ≤ 8 := by cases f <;> decide

theorem Udp.Field.disjoint (f g : Udp.Field) (h : f ≠ g) : f.loc.Disjoint g.loc := by
  revert h; cases f <;> cases g <;> decide

/-- C34: every accessor reads the field at the place RFC 768 gives it. -/
theorem C34_udp_layout (f : Udp.Field) (p : Bytes) (h : 8 ≤ p.length) :
    f.get p = some (f.loc.value p) := by
  have hb := f.bound
  cases f <;>
    first
      | exact v8_get _ _ (by simp only [Udp.Field.loc] at hb; omega)
      | exact v16_get _ _ (by simp only [Udp.Field.loc] at hb; omega)
      | exact v32_get _ _ (by simp only [Udp.Field.loc] at hb; omega)
      | exact vArr_get _ _ _ (by simp only [Udp.Field.loc] at hb; omega)

example := fun f => C34_udp_layout f (List.replicate 12 7#8) (by decide)

theorem Udp.Field.set_eq (f : Udp.Field) (p : Bytes) (v : Value) (h : 8 ≤ p.length) (hv : f.loc.Fits v) :
    f.set p v = some (f.loc.store p v) := by
  have hb := f.bound
  cases f <;> cases v <;> first | exact absurd hv.1 (by decide) | skip
  all_goals
    first
      | exact setAt_store _ _ _ (by simp only [Udp.Field.loc] at hb; omega) hv.2
      | exact put16_store _ _ _ (by simp only [Udp.Field.loc] at hb; omega) hv.2
      | exact put32_store _ _ _ (by simp only [Udp.Field.loc] at hb; omega) hv.2
      | exact putArr_store _ _ _ _ (by simp only [Udp.Field.loc] at hb; omega) hv.2

/-- C34: setting a field of a complete header succeeds for every value that fits, the field then has
the value, no other field changes, and no byte outside the field changes. -/
theorem C34_udp_set (f : Udp.Field) (p : Bytes) (v : Value) (h : 8 ≤ p.length)
    (hv : f.loc.Fits v) :
    ∃ p', f.set p v = some p' ∧ f.get p' = some v ∧ (∀ g, g ≠ f → g.get p' = g.get p) ∧
      SameOutside p p' f.loc.start (f.loc.start + f.loc.size) := by
  have hb := f.bound
  have hl := f.loc.store_length p v hv (by omega)
  refine ⟨_, f.set_eq p v h hv, ?_, ?_, f.loc.sameOutside_store p v hv (by omega)⟩
  · rw [C34_udp_layout f _ (by omega), f.loc.value_store p v hv (by omega)]
  · intro g hg
    rw [C34_udp_layout g _ (by omega), C34_udp_layout g p h,
      f.loc.value_store_disjoint g.loc p v hv (by omega) (f.disjoint g (Ne.symm hg))]

example : (Udp.Field.sourcePort).loc.Fits (.num 7) ∧
    ((Udp.Field.sourcePort).set (List.replicate 8 9#8) (.num 7)).bind (Udp.Field.sourcePort).get = some (.num 7) := by
  refine ⟨⟨rfl, by decide⟩, by decide +kernel⟩

/-! ## Gp -/

/-- The independent fields of the the GP frame structure header. -/
inductive Gp.Field
  | frameType | destinationAddr | sourceAddr
deriving DecidableEq, Repr

/-- the GP frame structure: position, size and kind. -/
def Gp.Field.loc : Gp.Field → Loc
  | .frameType => ⟨0, 1, .be⟩
  | .destinationAddr => ⟨1, 16, .raw⟩
  | .sourceAddr => ⟨17, 16, .raw⟩

/-- The accessor of a field. -/
def Gp.Field.get : Gp.Field → Bytes → Option Value
  | .frameType, p => v8 (Gp.frameType p)
  | .destinationAddr, p => vArr (Gp.destinationAddr p)
  | .sourceAddr, p => vArr (Gp.sourceAddr p)

/-- The setter of a field. -/
def Gp.Field.set : Gp.Field → Bytes → Value → Option Bytes
  | .frameType, p, .num k => Gp.setFrameType p (BitVec.ofNat 8 k)
  | .destinationAddr, p, .arr b => Gp.setDestinationAddr p b
  | .sourceAddr, p, .arr b => Gp.setSourceAddr p b
  | _, _, _ => none

theorem Gp.Field.bound (f : Gp.Field) : f.loc.start + f.loc.size ≤ 33 := by cases f <;> decide

theorem Gp.Field.disjoint (f g : Gp.Field) (h : f ≠ g) : f.loc.Disjoint g.loc := by
  revert h; cases f <;> cases g <;> decide

/-- C34: every accessor reads the field at the place the GP frame structure gives it. -/
theorem C34_gp_layout (f : Gp.Field) (p : Bytes) (h : 33 ≤ p.length) :
    f.get p = some (f.loc.value p) := by
  have hb := f.bound
  cases f <;>
    first
      | exact v8_get _ _ (by simp only [Gp.Field.loc] at hb; omega)
      | exact v16_get _ _ (by simp only [Gp.Field.loc] at hb; omega)
      | exact v32_get _ _ (by simp only [Gp.Field.loc] at hb; omega)
      | exact vArr_get _ _ _ (by simp only [Gp.Field.loc] at hb; omega)

example := fun f => C34_gp_layout f (List.replicate 40 7#8) (by decide)

theorem Gp.Field.set_eq (f : Gp.Field) (p : Bytes) (v : Value) (h : 33 ≤ p.length) (hv : f.loc.Fits v) :
    f.set p v = some (f.loc.store p v) := by
  have hb := f.bound
  cases f <;> cases v <;> first | exact absurd hv.1 (by decide) | skip
  all_goals
    first
      | exact setAt_store _ _ _ (by simp only [Gp.Field.loc] at hb; omega) hv.2
      | exact put16_store _ _ _ (by simp only [Gp.Field.loc] at hb; omega) hv.2
      | exact put32_store _ _ _ (by simp only [Gp.Field.loc] at hb; omega) hv.2
      | exact putArr_store _ _ _ _ (by simp only [Gp.Field.loc] at hb; omega) hv.2

/-- C34: setting a field of a complete header succeeds for every value that fits, the field then has
the value, no other field changes, and no byte outside the field changes. -/
theorem C34_gp_set (f : Gp.Field) (p : Bytes) (v : Value) (h : 33 ≤ p.length)
    (hv : f.loc.Fits v) :
    ∃ p', f.set p v = some p' ∧ f.get p' = some v ∧ (∀ g, g ≠ f → g.get p' = g.get p) ∧
      SameOutside p p' f.loc.start (f.loc.start + f.loc.size) := by
  have hb := f.bound
  have hl := f.loc.store_length p v hv (by omega)
  refine ⟨_, f.set_eq p v h hv, ?_, ?_, f.loc.sameOutside_store p v hv (by omega)⟩
  · rw [C34_gp_layout f _ (by omega), f.loc.value_store p v hv (by omega)]
  · intro g hg
    rw [C34_gp_layout g _ (by omega), C34_gp_layout g p h,
      f.loc.value_store_disjoint g.loc p v hv (by omega) (f.disjoint g (Ne.symm hg))]

example : (Gp.Field.frameType).loc.Fits (.num 7) ∧
    ((Gp.Field.frameType).set (List.replicate 33 9#8) (.num 7)).bind (Gp.Field.frameType).get = some (.num 7) := by
  refine ⟨⟨rfl, by decide⟩, by decide +kernel⟩

/-! ## GpAddr -/

/-- The independent fields of the the GP address structure header. -/
inductive GpAddr.Field
  | planetID | societyID | routerID | userID | appID
deriving DecidableEq, Repr

/-- the GP address structure: position, size and kind. -/
def GpAddr.Field.loc : GpAddr.Field → Loc
  | .planetID => ⟨0, 2, .be⟩
  | .societyID => ⟨2, 4, .be⟩
  | .routerID => ⟨6, 4, .be⟩
  | .userID => ⟨10, 4, .be⟩
  | .appID => ⟨14, 2, .be⟩

/-- The accessor of a field. -/
def GpAddr.Field.get : GpAddr.Field → Bytes → Option Value
  | .planetID, p => v16 (Gp.planetID p)
  | .societyID, p => v32 (Gp.societyID p)
  | .routerID, p => v32 (Gp.routerID p)
  | .userID, p => v32 (Gp.userID p)
  | .appID, p => v16 (Gp.appID p)

/-- The setter of a field. -/
def GpAddr.Field.set : GpAddr.Field → Bytes → Value → Option Bytes
  | .planetID, p, .num k => Gp.setPlanetID p (BitVec.ofNat 16 k)
  | .societyID, p, .num k => Gp.setSocietyID p (BitVec.ofNat 32 k)
  | .routerID, p, .num k => Gp.setRouterID p (BitVec.ofNat 32 k)
  | .userID, p, .num k => Gp.setUserID p (BitVec.ofNat 32 k)
  | .appID, p, .num k => Gp.setAppID p (BitVec.ofNat 16 k)
  | _, _, _ => none

theorem GpAddr.Field.bound (f : GpAddr.Field) : f.loc.start + f.loc.size ≤ 16 := by cases f <;> decide

theorem GpAddr.Field.disjoint (f g : GpAddr.Field) (h : f ≠ g) : f.loc.Disjoint g.loc := by
  revert h; cases f <;> cases g <;> decide

/-- C34: every accessor reads the field at the place the GP address structure gives it. -/
theorem C34_gpaddr_layout (f : GpAddr.Field) (p : Bytes) (h : 16 ≤ p.length) :
    f.get p = some (f.loc.value p) := by
  have hb := f.bound
  cases f <;>
    first
      | exact v8_get _ _ (by simp only [GpAddr.Field.loc] at hb; omega)
      | exact v16_get _ _ (by simp only [GpAddr.Field.loc] at hb; omega)
      | exact v32_get _ _ (by simp only [GpAddr.Field.loc] at hb; omega)
      | exact vArr_get _ _ _ (by simp only [GpAddr.Field.loc] at hb; omega)

example := fun f => C34_gpaddr_layout f (List.replicate 16 7#8) (by decide)

theorem GpAddr.Field.set_eq (f : GpAddr.Field) (p : Bytes) (v : Value) (h : 16 ≤ p.length) (hv : f.loc.Fits v) :
    f.set p v = some (f.loc.store p v) := by
  have hb := f.bound
  cases f <;> cases v <;> first | exact absurd hv.1 (by decide) | skip
  all_goals
    first
      | exact setAt_store _ _ _ (by simp only [GpAddr.Field.loc] at hb; omega) hv.2
      | exact put16_store _ _ _ (by simp only [GpAddr.Field.loc] at hb; omega) hv.2
      | exact put32_store _ _ _ (by simp only [GpAddr.Field.loc] at hb; omega) hv.2
      | exact putArr_store _ _ _ _ (by simp only [GpAddr.Field.loc] at hb; omega) hv.2

/-- C34: setting a field of a complete header succeeds for every value that fits, the field then has
the value, no other field changes, and no byte outside the field changes. -/
theorem C34_gpaddr_set (f : GpAddr.Field) (p : Bytes) (v : Value) (h : 16 ≤ p.length)
    (hv : f.loc.Fits v) :
    ∃ p', f.set p v = some p' ∧ f.get p' = some v ∧ (∀ g, g ≠ f → g.get p' = g.get p) ∧
      SameOutside p p' f.loc.start (f.loc.start + f.loc.size) := by
  have hb := f.bound
  have hl := f.loc.store_length p v hv (by omega)
  refine ⟨_, f.set_eq p v h hv, ?_, ?_, f.loc.sameOutside_store p v hv (by omega)⟩
  · rw [C34_gpaddr_layout f _ (by omega), f.loc.value_store p v hv (by omega)]
  · intro g hg
    rw [C34_gpaddr_layout g _ (by omega), C34_gpaddr_layout g p h,
      f.loc.value_store_disjoint g.loc p v hv (by omega) (f.disjoint g (Ne.symm hg))]

example : (GpAddr.Field.planetID).loc.Fits (.num 7) ∧
    ((GpAddr.Field.planetID).set (List.replicate 16 9#8) (.num 7)).bind (GpAddr.Field.planetID).get = some (.num 7) := by
  refine ⟨⟨rfl, by decide⟩, by decide +kernel⟩

end Memar.Net
