import Verif.Crypto.Model

/-!
# C150: ciphers and keys
-/

namespace Memar.Crypto
open Memar

namespace CSpec

/-- What was encrypted can be decrypted again. -/
def Inverse (c : Cipher) : Prop := ∀ buf, c.decrypt (c.encrypt buf).1 = (buf, false) ∧ (c.encrypt buf).2 = false

/-- Somebody who sees the buffer after encryption does not always see the text. -/
def Hides (c : Cipher) : Prop := ∃ buf, (c.encrypt buf).1 ≠ buf

/-- An authenticated cipher refuses some buffer that it did not make. -/
def Authenticates (c : Cipher) : Prop := ∃ buf, (c.decrypt buf).2 = true

/-- The key matters: two keys treat some block differently. -/
def Keyed (mk : Bytes → BlockCipher) : Prop := ∃ k k' block, (mk k).encrypt block ≠ (mk k').encrypt block

end CSpec
open CSpec

/-- **C150** (partial: the first part of the claim only): with every block cipher, what GCM and CCM encrypt is decrypted to what it
was, without an error; and so it is with AES-256 and every key.
Missing: secrecy, refusal of tampered buffers, and keys that matter (refuted: `C150_secrecy_violated`, `C150_tampering_violated`, `C150_key_violated`). -/
theorem C150_round_trip_partial (b : BlockCipher) (key block : Bytes) :
    Inverse (newGCM b) ∧ Inverse (newCCM b) ∧
      (newAES256 key).block.decrypt ((newAES256 key).block.encrypt block) = block :=
  ⟨fun _ => ⟨rfl, rfl⟩, fun _ => ⟨rfl, rfl⟩, rfl⟩

/-- **C150** violated for secrecy: whatever the block cipher is, neither GCM nor CCM changes a single byte of any text. -/
theorem C150_secrecy_violated (b : BlockCipher) : ¬ Hides (newGCM b) ∧ ¬ Hides (newCCM b) :=
  ⟨fun ⟨_, h⟩ => h rfl, fun ⟨_, h⟩ => h rfl⟩

/-- **C150** violated for tampering: both modes accept every buffer, also one that nobody encrypted. -/
theorem C150_tampering_violated (b : BlockCipher) : ¬ Authenticates (newGCM b) ∧ ¬ Authenticates (newCCM b) :=
  ⟨fun ⟨_, h⟩ => Bool.noConfusion h, fun ⟨_, h⟩ => Bool.noConfusion h⟩

/-- **C150** violated for the keys of AES-256: all keys are the same key, and every block is left as it is. -/
theorem C150_key_violated :
    ¬ Keyed (fun k => (newAES256 k).block) ∧ ∀ k block, (newAES256 k).block.encrypt block = block :=
  ⟨fun ⟨_, _, _, h⟩ => h rfl, fun _ _ => rfl⟩

/-- **C150** violated for the keys of an application: any two applications get the same pair of keys, and its private key is its
public key. -/
theorem C150_application_keys_violated (c c' : Cryptography) : c.init = c'.init ∧ c.init.privateKey = c.init.publicKey := ⟨rfl, rfl⟩

/- The notions of the specification can be met: a cipher that adds one to every byte hides, refuses and has an inverse on what it
makes; a block cipher that adds the first byte of its key is keyed. -/
example : Hides ⟨fun b => (b.map (· + 1), false), fun b => (b.map (· - 1), b.isEmpty)⟩ := ⟨[0#8], by decide⟩
example : Authenticates ⟨fun b => (b.map (· + 1), false), fun b => (b.map (· - 1), b.isEmpty)⟩ := ⟨[], rfl⟩
example : Keyed fun k => ⟨fun b => b.map (· + k.headD 0#8), id⟩ := ⟨[1#8], [2#8], [0#8], by decide⟩

end Memar.Crypto
