import Verif.Model.Gcm
import Verif.Model.Poly1305
import Verif.Model.Hkdf

/-! Model of what a call leaves behind when it panics. The other model files give the value of a call that returns
and `none` for a panic; here every public method that has a `&mut` argument is modelled a second time, statement by
statement, with the contents of that argument after the call, also after a panic that the caller catches (or observes
from another owner of the memory). `Props/Panic.lean` proves that on calls that return, both models agree. -/

namespace CryptoPure.Model.Effects
open Aes (BlockCipher)
open Sha2 (HashFunction)

/-- The outcome of a call: the contents of its `&mut [u8]` argument afterwards, and what it returned
(`none`: it panicked); for the `&mut [u8]` parameters at src/gcm.rs:12-20, 44, 88, src/poly1305.rs:30, 63,
src/chacha20.rs:41-54, src/hkdf.rs:24, 38. -/
structure Outcome (α : Type) where
  buffer : Bytes
  result : Option α

/-! ### GCM -/

/-- The loop of `Processor::process`, src/gcm.rs:89-98, on the remaining chunk pairs: the output chunks afterwards, and
whether the loop ended without a panic. When `zip` advances the range and that panics, this chunk and all later ones
keep their contents. -/
def gcmLoop (E : BlockCipher) (m : Mode) (st : E.State) : Bytes → U32 → List (Bytes × Bytes) → List Bytes × Bool
  | _, i, [] => ([], (rangeNext m i).isSome)
  | ctr, i, (inp, out) :: rest =>
    match rangeNext m i with
    | none => (out :: rest.map Prod.snd, false)
    | some (i, next) =>
      let (blk, ctr) := Gcm.block E st ctr i
      let out := List.zipWith (fun b (p : U8 × U8) => p.1 ^^^ b) blk (inp.zip out)
      let (rest, ok) := gcmLoop E m st ctr next rest
      (out :: rest, ok)

/-- `Processor::process`, src/gcm.rs:88-99. -/
def gcmProcess (E : BlockCipher) (m : Mode) (st : E.State) (ctr input output : Bytes) : Outcome Unit :=
  let (cs, ok) := gcmLoop E m st ctr 2 ((chunks 16 input).zip (chunks 16 output))
  ⟨cs.flatten, if ok then some () else none⟩

/-- `Gcm::encrypt`, src/gcm.rs:44-49. -/
def gcmEncrypt (E : BlockCipher) (m : Mode) (st : E.State) (input nonce data output : Bytes) : Outcome Bytes :=
  match Gcm.checkBounds input output nonce data with
  | none => ⟨output, none⟩
  | some () =>
    let ctr := Gcm.counter nonce
    match gcmProcess E m st ctr input output with
    | ⟨output, none⟩ => ⟨output, none⟩
    | ⟨output, some ()⟩ => ⟨output, Gcm.tag E m st output data ctr⟩

/-- `Gcm::decrypt`, src/gcm.rs:57-74. -/
def gcmDecrypt (E : BlockCipher) (m : Mode) (st : E.State) (input nonce data tag output : Bytes) : Outcome Bool :=
  match Gcm.checkBounds output input nonce data with
  | none => ⟨output, none⟩
  | some () =>
    let ctr := Gcm.counter nonce
    match (Gcm.tag E m st input data ctr).bind fun expected => Util.verify16 expected tag with
    | none => ⟨output, none⟩
    | some false => ⟨output, some false⟩
    | some true =>
      match gcmProcess E m st ctr input output with
      | ⟨output, none⟩ => ⟨output, none⟩
      | ⟨output, some ()⟩ => ⟨output, some true⟩

/-! ### ChaCha20-Poly1305 -/

/-- The loop of `process`, src/poly1305.rs:64-73, like `gcmLoop`. -/
def ccpLoop (m : Mode) (cipher : List U32) : U32 → List (Bytes × Bytes) → List Bytes × Bool
  | i, [] => ([], (rangeNext m i).isSome)
  | i, (inp, out) :: rest =>
    match rangeNext m i with
    | none => (out :: rest.map Prod.snd, false)
    | some (i, next) =>
      let blk := ChaCha20.block cipher i
      let out := List.zipWith (fun b (p : U8 × U8) => p.1 ^^^ b) blk (inp.zip out)
      let (rest, ok) := ccpLoop m cipher next rest
      (out :: rest, ok)

/-- `process`, src/poly1305.rs:63-74. -/
def ccpProcess (m : Mode) (cipher : List U32) (input output : Bytes) : Outcome Unit :=
  let (cs, ok) := ccpLoop m cipher 1 ((chunks 64 input).zip (chunks 64 output))
  ⟨cs.flatten, if ok then some () else none⟩

/-- `ChaCha20Poly1305::encrypt`, src/poly1305.rs:30-35. -/
def ccpEncrypt (m : Mode) (key input nonce data output : Bytes) : Outcome Bytes :=
  match (assert (input.length == output.length)).bind fun _ => ChaCha20.new key nonce with
  | none => ⟨output, none⟩
  | some cipher =>
    match ccpProcess m cipher input output with
    | ⟨output, none⟩ => ⟨output, none⟩
    | ⟨output, some ()⟩ => ⟨output, Poly1305.tag m cipher output data⟩

/-- `ChaCha20Poly1305::decrypt`, src/poly1305.rs:42-59. -/
def ccpDecrypt (m : Mode) (key input nonce data tag output : Bytes) : Outcome Bool :=
  match (assert (output.length == input.length)).bind fun _ => ChaCha20.new key nonce with
  | none => ⟨output, none⟩
  | some cipher =>
    match (Poly1305.tag m cipher input data).bind fun expected => Util.verify16 expected tag with
    | none => ⟨output, none⟩
    | some false => ⟨output, some false⟩
    | some true =>
      match ccpProcess m cipher input output with
      | ⟨output, none⟩ => ⟨output, none⟩
      | ⟨output, some ()⟩ => ⟨output, some true⟩

/-! ### The ChaCha20 stream: the object survives the panic too -/

open ChaCha20 (Stream)

/-- `Iterator::next` for `Stream`, src/chacha20.rs:70-72: the part after the `if`. -/
def streamEmit (m : Mode) (s : Stream) : Option U8 × Stream :=
  match s.block[s.blockIndex.toNat]? with
  | none => (none, s)
  | some byte =>
    match addC m s.blockIndex 1 with
    | none => (none, s)
    | some i => (some byte, { s with blockIndex := i })

/-- `Iterator::next` for `Stream`, src/chacha20.rs:65-74: the byte (`none`: panic) and the object afterwards.
`self.counter += 1` panics before it stores. -/
def streamNext (m : Mode) (s : Stream) : Option U8 × Stream :=
  if s.blockIndex = 64 then
    match addC m s.counter 1 with
    | none => (none, s)
    | some c =>
      streamEmit m { s with counter := c, block := ChaCha20.block s.chacha20 c, blockIndex := 0 }
  else streamEmit m s

/-- The loop of `Stream::process`, src/chacha20.rs:56-58, on the remaining pairs of input and output bytes: the output
bytes afterwards, the object afterwards, and whether the loop ended without a panic. -/
def streamLoop (m : Mode) : Stream → List (U8 × U8) → Bytes × Stream × Bool
  | s, [] => ([], s, true)
  | s, (z, x) :: rest =>
    match streamNext m s with
    | (none, s) => (x :: rest.map Prod.snd, s, false)
    | (some y, s) =>
      let (out, s, ok) := streamLoop m s rest
      ((y ^^^ z) :: out, s, ok)

/-- `Stream::encrypt` and `Stream::decrypt`, src/chacha20.rs:41-59: the outcome and the object afterwards. -/
def streamProcess (m : Mode) (s : Stream) (input output : Bytes) : Outcome Unit × Stream :=
  if input.length == output.length then
    let (out, s, ok) := streamLoop m s (input.zip output)
    (⟨out, if ok then some () else none⟩, s)
  else (⟨output, none⟩, s)

/-! ### HKDF -/

/-- `extract`, src/hkdf.rs:24-30: `prk` is written by the last statement only. -/
def hkdfExtract (H : HashFunction) (m : Mode) (salt ikm prk : Bytes) : Outcome Unit :=
  match (do
      assert (H.digestSize == prk.length)
      let h ← Hmac.new H m salt
      let h ← Hmac.update m h ikm
      Hmac.tag m h) with
  | none => ⟨prk, none⟩
  | some t => if prk.length == t.length then ⟨t, some ()⟩ else ⟨prk, none⟩

/-- The `for` loop of `expand`, src/hkdf.rs:43-55: the chunks of `okm` afterwards and whether it ended without a
panic. -/
def expandLoop (H : HashFunction) (m : Mode) (prk info : Bytes) :
    List Bytes → U8 → Hmac.Hmac H → List Bytes × Bool
  | [], i, _ => ([], (rangeNext m i).isSome)
  | chunk :: rest, i, hmac =>
    match (do
        let (i, next) ← rangeNext m i
        let hmac ← Hmac.update m hmac info
        let hmac ← Hmac.update m hmac [i]
        let t ← Hmac.tag m hmac
        some (t, next)) with
    | none => (chunk :: rest, false)
    | some (t, next) =>
      if chunk.length < H.digestSize then
        if chunk.length ≤ t.length then (t.take chunk.length :: rest, true) else (chunk :: rest, false)
      else if chunk.length == t.length then
        match (Hmac.new H m prk).bind fun hmac => Hmac.update m hmac t with
        | none => (t :: rest, false)
        | some hmac =>
          let (rest, ok) := expandLoop H m prk info rest next hmac
          (t :: rest, ok)
      else (chunk :: rest, false)

/-- `expand`, src/hkdf.rs:38-56. -/
def hkdfExpand (H : HashFunction) (m : Mode) (prk info okm : Bytes) : Outcome Unit :=
  match (do
      assert (H.digestSize ≤ prk.length)
      assert (255 * H.digestSize ≥ okm.length)
      let hmac ← Hmac.new H m prk
      assert (H.digestSize != 0)
      some hmac) with
  | none => ⟨okm, none⟩
  | some hmac =>
    let (cs, ok) := expandLoop H m prk info (chunks H.digestSize okm) 1 hmac
    ⟨cs.flatten, if ok then some () else none⟩

/-! ### SHA-2: the hash object survives a panicking `update` -/

/-- `update` of the processor, src/sha2.rs:396-419: the object afterwards and whether the call returned.
`self.len += ...` panics before it stores, and it is the first statement; nothing after it can panic. -/
def shaUpdate {w : Nat} (P : Sha2.Params w) (m : Mode) (s : Sha2.Proc w) (input : Bytes) : Sha2.Proc w × Bool :=
  match addC m s.len (BitVec.ofNat 64 input.length) with
  | none => (s, false)
  | some len =>
    let s := { s with len := len }
    let space := s.buffer.length - s.offset
    if s.offset > 0 then
      if input.length < space then
        ({ s with buffer := copyAt s.buffer s.offset input, offset := s.offset + input.length }, true)
      else
        let s := { s with buffer := copyAt s.buffer s.offset (input.take space), offset := 0 }
        let s := { s with state := Sha2.process P s.state s.buffer }
        (Sha2.absorbChunks P s (input.drop space), true)
    else (Sha2.absorbChunks P s input, true)

/-- `write_digest` of the four hash types, src/sha2.rs:122-129 and 421-425: `output` is written by the last statement
only, after the last operation that can panic. -/
def shaWriteDigest (H : HashFunction) (m : Mode) (s : H.State) (output : Bytes) : Outcome Unit :=
  match H.writeDigest m s output with
  | none => ⟨output, none⟩
  | some d => ⟨d, some ()⟩

/-- `Hmac::update`, src/hmac.rs:83-85: the object afterwards and whether the call returned, given the same for `update` of
the hash object inside. -/
def hmacUpdate {H : HashFunction} (run : H.State → Bytes → H.State × Bool) (h : Hmac.Hmac H) (input : Bytes) : Hmac.Hmac H × Bool :=
  let (inner, ok) := run h.inner input
  ({ h with inner := inner }, ok)

end CryptoPure.Model.Effects
