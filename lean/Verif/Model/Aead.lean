import Verif.Model.Gcm
import Verif.Model.Poly1305

/-! The trait `AeadCipher` of /repo/src/gcm.rs and its implementors. -/

namespace CryptoPure.Model

/-- The trait `AeadCipher`, src/gcm.rs:7-24, as a record. `encrypt` returns the new contents of `output` and the tag,
`decrypt` the new contents of `output` and the `bool`; `none` is a panic. -/
structure AeadCipher where
  State : Type
  new : Bytes → Option State
  /-- arguments: input, nonce, data, output -/
  encrypt : Mode → State → Bytes → Bytes → Bytes → Bytes → Option (Bytes × Bytes)
  /-- arguments: input, nonce, data, tag, output -/
  decrypt : Mode → State → Bytes → Bytes → Bytes → Bytes → Bytes → Option (Bytes × Bool)

/-- `impl<E: BlockCipher> AeadCipher for Gcm<E>`, src/gcm.rs:28-75. -/
def gcmAead (E : Aes.BlockCipher) : AeadCipher where
  State := E.State
  new := Gcm.new E
  encrypt := Gcm.encrypt E
  decrypt := Gcm.decrypt E

/-- `impl AeadCipher for ChaCha20Poly1305`, src/poly1305.rs:12-60. -/
def ccpAead : AeadCipher where
  State := Bytes
  new := Poly1305.new
  encrypt := Poly1305.encrypt
  decrypt := Poly1305.decrypt

/-- The implementors of the trait with the crate's own block ciphers: src/gcm.rs `impl AeadCipher`,
src/poly1305.rs:12-60, src/aes.rs. -/
def aeads : List AeadCipher := [gcmAead Aes.Aes128, gcmAead Aes.Aes192, gcmAead Aes.Aes256, ccpAead]

end CryptoPure.Model
