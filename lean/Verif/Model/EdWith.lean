import Verif.Model.Ed25519

/-! # src/ed25519.rs with the hash function as a parameter

The same code as in Verif/Model/Ed25519.lean, with the three calls of SHA-512 replaced by parameters. Verif/Proofs/EdWith.lean proves that
with SHA-512 as the parameter these are the functions of Verif/Model/Ed25519.lean. -/

namespace CryptoPure.Model.EdWith
open Fe Ed25519

/-- `gen_pk`, src/ed25519.rs:13-24, from line 17 on; `az` is the digest of the secret key. -/
def genPkWith (m : Mode) (az : Bytes) : Option Bytes := do
  let az := clampAz az
  let a ← scalarmultBase m az
  toBytes m a.x a.y a.z

/-- `sign`, src/ed25519.rs:31-64, from line 35 on. `az` is the digest of the secret key, `hashNonce` takes the place of hashing
`az[32..]` followed by the message (lines 42-46), `hashChallenge` of the hash of lines 55-59. -/
def signWith (m : Mode) (az : Bytes) (hashNonce hashChallenge : Bytes → Bytes) (message : Bytes) : Option Bytes := do
  let az := clampAz az
  let a ← scalarmultBase m az
  let publicKey ← toBytes m a.x a.y a.z
  let nonce := hashNonce message
  let nonce ← Sc.reduce m nonce
  let signature := copyAt (zeros 64) 32 publicKey
  let r ← scalarmultBase m nonce
  let rb ← toBytes m r.x r.y r.z
  let signature := copyAt signature 0 rb
  let hram := hashChallenge (signature ++ message)
  let hram ← Sc.reduce m hram
  let s ← Sc.muladd m hram az nonce
  some (copyAt signature 32 s)

/-- `verify`, src/ed25519.rs:71-96, with `hashChallenge` in place of the hash of lines 83-89. -/
def verifyWith (m : Mode) (hashChallenge : Bytes → Bytes) (message signature publicKey : Bytes) : Option Bool := do
  assert (32 == publicKey.length)
  if signature.length ≠ 64 ∨ (signature.getD 63 0 &&& 224) ≠ 0 then some false
  else
    match ← fromBytesNegate m publicKey with
    | none => some false
    | some a => do
      let rcopy := signature.take 32
      let scopy := signature.drop 32
      let h := hashChallenge (rcopy ++ publicKey ++ message)
      let h ← Sc.reduce m h
      let r ← doubleScalarmult m h a scopy
      let rcheck ← toBytes m r.x r.y r.z
      some (verify32 rcheck rcopy == 0)

end CryptoPure.Model.EdWith
