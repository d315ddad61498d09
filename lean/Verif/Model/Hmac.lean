import Verif.Model.Sha2
import Verif.Model.Util

/-! Model of /repo/src/hmac.rs, generic in the hash function like the source. -/

namespace CryptoPure.Model.Hmac
open Sha2 (HashFunction maxDigestSize)

/-- `Hmac<H>`, src/hmac.rs:22-25. -/
structure Hmac (H : HashFunction) where
  inner : H.State
  outer : H.State

variable {H : HashFunction}

/-- `keyed_hash_function`, src/hmac.rs:104-113: one `update` per byte. -/
def keyedHashFunction (H : HashFunction) (m : Mode) (key : Bytes) (pad : U8) : Option H.State := do
  let s ← key.foldlM (fun s byte => H.update m s [byte ^^^ pad]) H.default
  (List.range' key.length (H.blockSize - key.length)).foldlM (fun s _ => H.update m s [pad]) s

/-- `Hmac::new`, src/hmac.rs:65-80. Slicing `hashed_key[..H::DIGEST_SIZE]` panics when the digest is longer
than `MAX_DIGEST_SIZE`. -/
def new (H : HashFunction) (m : Mode) (key : Bytes) : Option (Hmac H) := do
  let newKey ←
    if key.length > H.blockSize then do
      let s ← H.update m H.default key
      assert (H.digestSize ≤ maxDigestSize)
      H.writeDigest m s (zeros H.digestSize)
    else some key
  let i ← keyedHashFunction H m newKey 0x36
  let o ← keyedHashFunction H m newKey 0x5c
  some { inner := i, outer := o }

/-- `Hmac::update`, src/hmac.rs:83-85. -/
def update (m : Mode) (h : Hmac H) (input : Bytes) : Option (Hmac H) := do
  let i ← H.update m h.inner input
  some { h with inner := i }

/-- `Hmac::write_tag`, src/hmac.rs:97-102. -/
def writeTag (m : Mode) (h : Hmac H) (output : Bytes) : Option Bytes := do
  assert (H.digestSize == output.length)
  let output ← H.writeDigest m h.inner output
  let o ← H.update m h.outer output
  H.writeDigest m o output

/-- `Hmac::tag`, src/hmac.rs:88-95, followed by `Tag::deref` (src/hmac.rs:124-129): the tag bytes. -/
def tag (m : Mode) (h : Hmac H) : Option Bytes := do
  assert (H.digestSize ≤ maxDigestSize)
  writeTag m h (zeros H.digestSize)

/-- `impl_wrapper!`, src/hmac.rs:33-41. -/
def wrapper (H : HashFunction) (m : Mode) (key message : Bytes) : Option Bytes := do
  let h ← new H m key
  let h ← update m h message
  writeTag m h (zeros H.digestSize)

/-- `hmac_sha512`, src/hmac.rs:44-46. -/
def hmac_sha512 := wrapper Sha2.Sha512
/-- `hmac_sha384`, src/hmac.rs:49-51. -/
def hmac_sha384 := wrapper Sha2.Sha384
/-- `hmac_sha256`, src/hmac.rs:54-56. -/
def hmac_sha256 := wrapper Sha2.Sha256
/-- `hmac_sha224`, src/hmac.rs:59-61. -/
def hmac_sha224 := wrapper Sha2.Sha224

/-- `verify`, src/hmac.rs:117-122. (`Tag::as_ref`, src/hmac.rs:132-136, gives the bytes of `deref`.) -/
def verify (H : HashFunction) (m : Mode) (key message tag' : Bytes) : Option Bool := do
  let h ← new H m key
  let h ← update m h message
  let expected ← tag m h
  if expected.length == tag'.length then do
    let d ← Util.verifyInner expected tag'
    some (d == 0)
  else some false

end CryptoPure.Model.Hmac
