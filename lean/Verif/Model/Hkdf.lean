import Verif.Model.Hmac

/-! Model of /repo/src/hkdf.rs -/

namespace CryptoPure.Model.Hkdf
open Sha2 (HashFunction)

/-- `extract`, src/hkdf.rs:24-30: the new contents of `prk`. -/
def extract (H : HashFunction) (m : Mode) (salt ikm prk : Bytes) : Option Bytes := do
  assert (H.digestSize == prk.length)
  let h ← Hmac.new H m salt
  let h ← Hmac.update m h ikm
  let t ← Hmac.tag m h
  assert (prk.length == t.length)
  some t

/-- The `for` loop of `expand`, src/hkdf.rs:43-55. The list is the remaining `okm.chunks_mut(..)`, `i` the
`start` field of the `RangeFrom<u8>`; `zip` advances the range before the chunks. Returns the new chunks. -/
def expandLoop (H : HashFunction) (m : Mode) (prk info : Bytes) :
    List Bytes → U8 → Hmac.Hmac H → Option (List Bytes)
  | [], i, _ => do
    let _ ← rangeNext m i
    some []
  | chunk :: rest, i, hmac => do
    let (i, next) ← rangeNext m i
    let hmac ← Hmac.update m hmac info
    let hmac ← Hmac.update m hmac [i]
    let t ← Hmac.tag m hmac
    if chunk.length < H.digestSize then
      assert (chunk.length ≤ t.length)
      some (t.take chunk.length :: rest)
    else do
      assert (chunk.length == t.length)
      let hmac ← Hmac.new H m prk
      let hmac ← Hmac.update m hmac t
      let rest ← expandLoop H m prk info rest next hmac
      some (t :: rest)

/-- `expand`, src/hkdf.rs:38-56: the new contents of `okm`. (`chunks_mut(0)` panics.) -/
def expand (H : HashFunction) (m : Mode) (prk info okm : Bytes) : Option Bytes := do
  assert (H.digestSize ≤ prk.length)
  assert (255 * H.digestSize ≥ okm.length)
  let hmac ← Hmac.new H m prk
  assert (H.digestSize != 0)
  let cs ← expandLoop H m prk info (chunks H.digestSize okm) 1 hmac
  some cs.flatten

end CryptoPure.Model.Hkdf
