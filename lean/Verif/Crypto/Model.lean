import Verif.Base

/-!
# Ciphers of `crypto` and the keys of an application

A cipher works in place: what it does is the buffer afterwards and whether it reports an error.  The block cipher handed to a mode
is a pair of functions on the sixteen bytes of a block.
-/

namespace Memar.Crypto
open Memar

/-- `BlockCipher128` as crypto/gcm.go:6 and crypto/ccm.go:6 use it. -/
structure BlockCipher where
  encrypt : Bytes → Bytes
  decrypt : Bytes → Bytes

/-- `Cipher`: the buffer afterwards, and whether there was an error. -/
structure Cipher where
  encrypt : Bytes → Bytes × Bool
  decrypt : Bytes → Bytes × Bool

/-- crypto/aes-256.go:9-12 `aes256`: the two expanded keys. -/
structure Aes256 where
  enc : List (BitVec 32)
  dec : List (BitVec 32)
deriving DecidableEq, Repr

/-- crypto/aes-256.go:15-18 `NewAES256` -/
def newAES256 (_key : Bytes) : Aes256 := ⟨List.replicate 60 0#32, List.replicate 60 0#32⟩

/-- crypto/aes-256.go:22 -/
def Aes256.encrypt (_ : Aes256) (block : Bytes) : Bytes := block

/-- crypto/aes-256.go:26 -/
def Aes256.decrypt (_ : Aes256) (block : Bytes) : Bytes := block

/-- The interface value crypto/aes-256.go:17 returns. -/
def Aes256.block (a : Aes256) : BlockCipher := ⟨a.encrypt, a.decrypt⟩

/-- crypto/gcm.go:11-16 `NewGCM` with crypto/gcm.go:20-22 and crypto/gcm.go:26-28 -/
def newGCM (_b : BlockCipher) : Cipher := ⟨fun buf => (buf, false), fun buf => (buf, false)⟩

/-- crypto/ccm.go:11-16 `NewCCM` with crypto/ccm.go:20-22 and crypto/ccm.go:26-28 -/
def newCCM (_b : BlockCipher) : Cipher := ⟨fun buf => (buf, false), fun buf => (buf, false)⟩

/-- achaemenid/cryptography.go:11-15; the checksum generator is left out. -/
structure Cryptography where
  publicKey : Bytes
  privateKey : Bytes
deriving DecidableEq, Repr

/-- achaemenid/cryptography.go:18-25 `init` -/
def Cryptography.init (_ : Cryptography) : Cryptography := ⟨List.replicate 32 0#8, List.replicate 32 0#8⟩

end Memar.Crypto
