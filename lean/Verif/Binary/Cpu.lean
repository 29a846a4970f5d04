import Verif.Binary.Props

/-!
# The check of the CPU at the start of a program (C02)

Model of the `init` functions of package `binary`.  How a CPU lays out a word in memory is the hardware's; it is
given here for the two kinds of CPU.
-/

namespace Memar.Binary
open Memar Binary.Spec

/-- The two kinds of CPU. -/
inductive Cpu where
  | little
  | big
  deriving DecidableEq, Repr

/-- The four bytes of a 32-bit word in the memory of a CPU: the hardware, not the code. -/
def Cpu.memory (c : Cpu) (w : U32) : Bytes :=
  match c with
  | .little => leDigits 4 w.toNat
  | .big => beDigits 4 w.toNat

/-- The files a program is built from: `*-in-le-cpu.go` or `*-in-be-cpu.go`. -/
inductive Build where
  | leFiles
  | beFiles
  deriving DecidableEq, Repr

/-- binary/be-in-le-cpu.go:51-57, binary/le-in-le-cpu.go:55-61, binary/be-in-be-cpu.go:52-58 and
binary/le-in-be-cpu.go:50-56: whether a program starts; otherwise `init` panics. -/
def Build.starts (build : Build) (c : Cpu) : Bool :=
  match build with
  | .leFiles => !((c.memory 1#32).getD 0 0#8 != 1#8)
  | .beFiles => !((c.memory 1#32).getD 0 0#8 == 1#8)

/-- `BigEndian(b).PutUint32(v)` in a program built from the files. -/
def Build.putBigEndian32 (build : Build) (b : Bytes) (v : U32) : Option Bytes :=
  match build with
  | .leFiles => BE.putUint32 b v
  | .beFiles => BEonBE.putUint32 b v

/-- `LittleEndian(b).PutUint32(v)` in a program built from the files. -/
def Build.putLittleEndian32 (build : Build) (b : Bytes) (v : U32) : Option Bytes :=
  match build with
  | .leFiles => LE.putUint32 b v
  | .beFiles => LEonBE.putUint32 b v

/-- **C02** (partial: that a program starts does not make its format right): a program starts exactly on the kind of CPU its files are for, so on every CPU exactly one of the two builds runs.
Missing: the same bytes on both (refuted: `C02_portable_violated`, `C02_started_program_violated`). -/
theorem C02_cpu_check_partial (build : Build) (c : Cpu) :
    (build.starts c = true ↔ (build = .leFiles ∧ c = .little) ∨ (build = .beFiles ∧ c = .big)) ∧
    (Build.leFiles.starts c = !Build.beFiles.starts c) := by
  cases build <;> cases c <;> decide

example : Build.leFiles.starts .little = true ∧ Build.leFiles.starts .big = false := by decide

/-- **C02** violated for every program that starts: the bytes it writes for a value depend on the CPU. `BigEndian` writes the
most significant byte first on the one kind and last on the other, `LittleEndian` the other way round; no choice of files
helps, because the other files do not start. -/
theorem C02_started_program_violated (build : Build) (c : Cpu) (hs : build.starts c = true) (b : Bytes) (v : U32)
    (h : 4 ≤ b.length) :
    build.putBigEndian32 b v = some ((match c with
      | .little => beDigits 4 v.toNat
      | .big => leDigits 4 v.toNat) ++ b.drop 4) ∧
    build.putLittleEndian32 b v = some ((match c with
      | .little => leDigits 4 v.toNat
      | .big => beDigits 4 v.toNat) ++ b.drop 4) := by
  rcases (C02_cpu_check_partial build c).1.mp hs with ⟨rfl, rfl⟩ | ⟨rfl, rfl⟩
  · exact ⟨by rw [Build.putBigEndian32, C01_be32_store, if_pos h], by rw [Build.putLittleEndian32, C01_le32_store, if_pos h]⟩
  · constructor
    · rw [Build.putBigEndian32, (C02_be_on_be_cpu_is_le b).2.2.2.2.1, C01_le32_store, if_pos h]
    · rw [Build.putLittleEndian32, (C02_le_on_be_cpu_is_be b).2.2.2.2.1, C01_be32_store, if_pos h]

/-- What a program on a big-endian CPU writes with `BigEndian` is what that CPU has in its memory reversed, and likewise for
the other type and CPU: the two kinds of program read each other's bytes backwards. -/
example : Build.beFiles.starts .big = true ∧ Build.beFiles.putBigEndian32 [0, 0, 0, 0] 1#32 = some [1, 0, 0, 0] ∧
    Build.leFiles.putBigEndian32 [0, 0, 0, 0] 1#32 = some [0, 0, 0, 1] := by decide

end Memar.Binary
