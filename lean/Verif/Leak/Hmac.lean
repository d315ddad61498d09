import Verif.Leak.Sha2
import Verif.Leak.Util

/-! Recorded version of /repo/src/hmac.rs and /repo/src/hkdf.rs (see Verif/Model/Hmac.lean, Verif/Model/Hkdf.lean). -/

namespace CryptoPure.Leak.Hmac
open Sha2 (HashFunction)
open Model.Sha2 (maxDigestSize)

/-- `Hmac<H>`, src/hmac.rs:22-25. -/
structure Hmac (H : HashFunction) where
  inner : H.State
  outer : H.State

variable {H : HashFunction}

/-- `keyed_hash_function`, src/hmac.rs:104-113. -/
def keyedHashFunction (H : HashFunction) (key : Bytes) (pad : U8) : L H.State := do
  let s ← loop (fun s byte => H.update s [byte ^^^ pad]) key H.default
  loop (fun s _ => H.update s [pad]) (List.range' key.length (H.blockSize - key.length)) s

/-- `Hmac::new`, src/hmac.rs:65-80. -/
def new (H : HashFunction) (key : Bytes) : L (Hmac H) := do
  let newKey ← (do
    if ← branch (decide (key.length > H.blockSize)) then do
      let s ← H.update H.default key
      check (decide (H.digestSize ≤ maxDigestSize))
      H.writeDigest s (zeros H.digestSize)
    else pure key)
  let i ← keyedHashFunction H newKey 0x36
  let o ← keyedHashFunction H newKey 0x5c
  pure { inner := i, outer := o }

/-- `Hmac::update`, src/hmac.rs:83-85. -/
def update (h : Hmac H) (input : Bytes) : L (Hmac H) := do
  let i ← H.update h.inner input
  pure { h with inner := i }

/-- `Hmac::write_tag`, src/hmac.rs:97-102. -/
def writeTag (h : Hmac H) (output : Bytes) : L Bytes := do
  check (H.digestSize == output.length)
  let output ← H.writeDigest h.inner output
  let o ← H.update h.outer output
  H.writeDigest o output

/-- `Hmac::tag`, `Tag::deref`, src/hmac.rs:88-95, 124-129. -/
def tag (h : Hmac H) : L Bytes := do
  check (decide (H.digestSize ≤ maxDigestSize))
  writeTag h (zeros H.digestSize)

/-- `impl_wrapper!`, src/hmac.rs:33-41; with the four hash functions, `hmac_sha512` to `hmac_sha224`. -/
def wrapper (H : HashFunction) (key message : Bytes) : L Bytes := do
  let h ← new H key
  let h ← update h message
  writeTag h (zeros H.digestSize)

/-- `verify`, src/hmac.rs:117-122. -/
def verify (H : HashFunction) (key message tag' : Bytes) : L Bool := do
  let h ← new H key
  let h ← update h message
  let expected ← tag h
  if ← branch (expected.length == tag'.length) then do
    let d ← Util.verifyInner expected tag'
    pure (d == 0)
  else pure false

end CryptoPure.Leak.Hmac

namespace CryptoPure.Leak.Hkdf
open Sha2 (HashFunction)

/-- `extract`, src/hkdf.rs:24-30. -/
def extract (H : HashFunction) (salt ikm prk : Bytes) : L Bytes := do
  check (H.digestSize == prk.length)
  let h ← Hmac.new H salt
  let h ← Hmac.update h ikm
  let t ← Hmac.tag h
  check (prk.length == t.length)
  pure t

/-- The `for` loop of `expand`, src/hkdf.rs:43-55. -/
def expandLoop (H : HashFunction) (prk info : Bytes) : List Bytes → U8 → Hmac.Hmac H → L (List Bytes)
  | [], _, _ => do
    let _ ← branch false
    pure []
  | chunk :: rest, i, hmac => do
    let _ ← branch true
    let hmac ← Hmac.update hmac info
    let hmac ← Hmac.update hmac [i]
    let t ← Hmac.tag hmac
    if ← branch (decide (chunk.length < H.digestSize)) then do
      check (decide (chunk.length ≤ t.length))
      pure (t.take chunk.length :: rest)
    else do
      check (chunk.length == t.length)
      let hmac ← Hmac.new H prk
      let hmac ← Hmac.update hmac t
      let rest ← expandLoop H prk info rest (i + 1) hmac
      pure (t :: rest)

/-- `expand`, src/hkdf.rs:38-56. -/
def expand (H : HashFunction) (prk info okm : Bytes) : L Bytes := do
  check (decide (H.digestSize ≤ prk.length))
  check (decide (255 * H.digestSize ≥ okm.length))
  let hmac ← Hmac.new H prk
  check (H.digestSize != 0)
  let cs ← expandLoop H prk info (chunks H.digestSize okm) 1 hmac
  pure cs.flatten

end CryptoPure.Leak.Hkdf
