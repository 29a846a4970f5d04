import Verif.Base

/-!
# C154: types of actions (`operation/protocol/action.go`)

An `ActionType` is a `uint64` whose bits are the actions.
-/

namespace Memar.Operation
open Memar

/-- operation/protocol/action.go:12 -/
abbrev ActionType := BitVec 64

/-- operation/protocol/action.go:16-18 `Set`: the value afterwards. -/
def ActionType.set (_at : ActionType) (w : ActionType) : ActionType := w

/-- operation/protocol/action.go:21-23 `Check` -/
def ActionType.check (a w : ActionType) : Bool := w &&& a == w

/-- operation/protocol/action.go:25 -/
def none : ActionType := 0#64
/-- operation/protocol/action.go:30-36: `1 << iota`. -/
def create : ActionType := 1#64 <<< 0
def read : ActionType := 1#64 <<< 1
def update : ActionType := 1#64 <<< 2
def delete : ActionType := 1#64 <<< 3
def list : ActionType := 1#64 <<< 4
def notify : ActionType := 1#64 <<< 5
def approve : ActionType := 1#64 <<< 6
/-- operation/protocol/action.go:38 -/
def all : ActionType := 0xffffffffffffffff#64

namespace ASpec

/-- The actions a value stands for, by the number of the bit. -/
def Has (a : ActionType) (i : Nat) : Prop := a.getLsbD i = true

end ASpec
open ASpec

/-- **C154**: checking asks whether every action of the given value is among those of the type. -/
theorem C154_check (a w : ActionType) : ActionType.check a w = true ↔ ∀ i, Has w i → Has a i := by
  unfold ActionType.check Has
  rw [beq_iff_eq]
  constructor
  · intro h i hi
    rw [← h, BitVec.getLsbD_and] at hi
    simp_all
  · intro h
    apply BitVec.eq_of_getLsbD_eq
    intro i _
    rw [BitVec.getLsbD_and]
    cases hw : w.getLsbD i
    · rfl
    · rw [h i hw]; rfl

/-- **C154**: the actions of mixed values are those of both; so a mix is allowed exactly when each of its parts is. -/
theorem C154_mix (a v w : ActionType) :
    ActionType.check a (v ||| w) = (ActionType.check a v && ActionType.check a w) := by
  rw [Bool.eq_iff_iff, Bool.and_eq_true, C154_check, C154_check, C154_check]
  simp only [Has, BitVec.getLsbD_or, Bool.or_eq_true]
  exact ⟨fun h => ⟨fun i hi => h i (.inl hi), fun i hi => h i (.inr hi)⟩, fun h i hi => hi.elim (h.1 i) (h.2 i)⟩

/-- **C154**: a type that was set to a mix allows its parts and nothing else, whatever it was before. -/
theorem C154_set (a w v : ActionType) : ActionType.check (ActionType.set a w) v = true ↔ ∀ i, Has v i → Has w i :=
  C154_check w v

/-- **C154**: everything is allowed by "all", and "all" only by itself; nothing but "none" is allowed by "none", and "none" is
always allowed. -/
theorem C154_all_none (a w : ActionType) :
    ActionType.check all w = true ∧ (ActionType.check a all = true ↔ a = all) ∧
      (ActionType.check none w = true ↔ w = none) ∧ ActionType.check a none = true := by
  unfold ActionType.check
  refine ⟨?_, ?_, ?_, ?_⟩
  · rw [beq_iff_eq, show all = BitVec.allOnes 64 by decide, BitVec.and_allOnes]
  · rw [beq_iff_eq, show all = BitVec.allOnes 64 by decide, BitVec.allOnes_and]
  · rw [beq_iff_eq, none, BitVec.and_zero]; exact eq_comm
  · rw [beq_iff_eq, none, BitVec.zero_and]

/-- The named actions. -/
def named : List ActionType := [create, read, update, delete, list, notify, approve]

/-- **C154**: each named action stands for one action, a different one for each; so a type allows a named action exactly when it was
mixed from values of which one has it. -/
theorem C154_named :
    (∀ n w, named[n]? = some w → ∀ i, Has w i ↔ i = n) ∧
      ∀ (ws : List ActionType), (∀ w ∈ ws, w ∈ named) → ∀ w ∈ named,
        (ActionType.check (ws.foldl (· ||| ·) none) w = true ↔ w ∈ ws) := by
  have key : ∀ n w, named[n]? = some w → ∀ i, Has w i ↔ i = n := by
    intro n w h i
    have hn : n < 7 := by
      have := (List.getElem?_eq_some_iff.mp h).1
      exact this
    have hw : w = 1#64 <<< n := by
      have : ∀ m < 7, named[m]? = some (1#64 <<< m) := by decide
      rw [this n hn] at h
      exact (Option.some.inj h).symm
    rw [hw, Has, BitVec.getLsbD_shiftLeft, BitVec.getLsbD_one]
    simp only [Bool.and_eq_true, decide_eq_true_eq, Bool.not_eq_true', decide_eq_false_iff_not]
    omega
  refine ⟨key, ?_⟩
  intro ws hws w hw
  have hor : ∀ (ws : List ActionType) (z : ActionType) (i : Nat),
      Has (ws.foldl (· ||| ·) z) i ↔ Has z i ∨ ∃ v ∈ ws, Has v i := by
    intro ws
    induction ws with
    | nil => intro z i; simp
    | cons v t ih =>
      intro z i
      rw [List.foldl_cons, ih]
      simp only [Has, BitVec.getLsbD_or, Bool.or_eq_true, List.mem_cons, exists_eq_or_imp]
      exact or_assoc
  obtain ⟨n, hn, rfl⟩ := List.getElem_of_mem hw
  have hkn := key n _ (List.getElem?_eq_getElem hn)
  rw [C154_check]
  constructor
  · intro h
    rcases (hor ws none n).1 (h n ((hkn n).2 rfl)) with hz | ⟨v, hv, hvn⟩
    · simp [Has, none] at hz
    · obtain ⟨m, hm, rfl⟩ := List.getElem_of_mem (hws v hv)
      have := (key m _ (List.getElem?_eq_getElem hm) n).1 hvn
      subst this
      exact hv
  · intro h i hi
    exact (hor ws none i).2 (.inr ⟨_, h, hi⟩)

example : ActionType.check (ActionType.set all (create ||| delete)) read = false ∧
    ActionType.check (create ||| delete) (delete ||| create) = true := by decide

end Memar.Operation
