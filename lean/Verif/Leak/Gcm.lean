import Verif.Leak.Aes
import Verif.Leak.Util
import Verif.Model.GHash

/-! Recorded version of /repo/src/ghash.rs and /repo/src/gcm.rs (see Verif/Model/GHash.lean, Verif/Model/Gcm.lean). Without
overflow checks the additions and multiplications of lengths do not branch. -/

namespace CryptoPure.Leak.GHash
open Model.GHash (PolyFunction mulStep)

/-- `PolyFunction::process`, src/ghash.rs:70-86. -/
def polyProcess (s : PolyFunction) (input : Bytes) : L PolyFunction := do
  let state := s.state ^^^ BitVec.ofNat 128 (beNat input)
  let r ← loop (fun p _ => pure (mulStep p)) (List.range 128) (0, s.keyBlock, state)
  pure { s with state := r.1 }

/-- Body of the loop in `GHash::process`, src/ghash.rs:43-51. -/
def processChunk (f : PolyFunction) (chunk : Bytes) : L PolyFunction := do
  if ← branch (decide (chunk.length < 16)) then do
    let buffer ← copy (zeros 16) 0 chunk
    polyProcess f buffer
  else polyProcess f chunk

/-- `ghash`, src/ghash.rs:3-9 with `GHash::new`, `update`, `write_tag`, src/ghash.rs:20-40. -/
def ghash (key data ciphertext : Bytes) : L Bytes := do
  let f := PolyFunction.new key
  let f ← loop processChunk (chunks 16 data) f
  let f ← loop processChunk (chunks 16 ciphertext) f
  let a : U64 := 8 * BitVec.ofNat 64 data.length
  let c : U64 := 8 * BitVec.ofNat 64 ciphertext.length
  let f ← polyProcess f (toBE 8 a.toNat ++ toBE 8 c.toNat)
  pure f.value

end CryptoPure.Leak.GHash

namespace CryptoPure.Leak.Gcm
open Aes (BlockCipher)

variable (E : BlockCipher)

/-- `Processor::block`, src/gcm.rs:101-104. -/
def block (st : E.State) (ctr : Bytes) (i : U32) : L (Bytes × Bytes) := do
  let ctr := copyAt ctr 12 (toBE 4 i.toNat)
  let b ← E.permute st ctr
  pure (b, ctr)

/-- The loop of `Processor::process`, src/gcm.rs:89-98; `i` wraps without overflow checks. -/
def processLoop (st : E.State) : Bytes → U32 → List (Bytes × Bytes) → L (List Bytes)
  | _, _, [] => do
    let _ ← branch false
    pure []
  | ctr, i, (inp, out) :: rest => do
    let _ ← branch true
    let (blk, ctr) ← block E st ctr i
    let out ← each (fun (p : U8 × U8 × U8) => pure (p.2.1 ^^^ p.1)) (blk.zip (inp.zip out))
    let rest ← processLoop st ctr (i + 1) rest
    pure (out :: rest)

/-- `Processor::process`, src/gcm.rs:88-99. -/
def process (st : E.State) (ctr input output : Bytes) : L Bytes := do
  let cs ← processLoop E st ctr 2 ((chunks 16 input).zip (chunks 16 output))
  pure cs.flatten

/-- `Processor::tag`, `Processor::ghash`, src/gcm.rs:106-118. -/
def tag (st : E.State) (ciphertext data ctr : Bytes) : L Bytes := do
  let (t, _) ← block E st ctr 1
  let key ← E.permute st (zeros 16)
  let h ← GHash.ghash key data ciphertext
  each (fun p => pure (p.1 ^^^ p.2)) (t.zip h)

/-- `check_bounds`, src/gcm.rs:127-132. -/
def checkBounds (message ciphertext nonce data : Bytes) : L Unit := do
  check (12 == nonce.length)
  check (message.length == ciphertext.length)
  check (decide (2 ^ 36 > message.length + 32))
  check (decide (2 ^ 61 > data.length))

/-- `Gcm::encrypt`, src/gcm.rs:44-49. -/
def encrypt (st : E.State) (input nonce data output : Bytes) : L (Bytes × Bytes) := do
  checkBounds input output nonce data
  let ctr ← copy (zeros 16) 0 nonce
  let output ← process E st ctr input output
  let t ← tag E st output data ctr
  pure (output, t)

/-- `Gcm::decrypt`, src/gcm.rs:57-74. -/
def decrypt (st : E.State) (input nonce data tag' output : Bytes) : L (Bytes × Bool) := do
  checkBounds output input nonce data
  let ctr ← copy (zeros 16) 0 nonce
  let expected ← tag E st input data ctr
  let ok ← Util.verify16 expected tag'
  if ← branch ok then do
    let output ← process E st ctr input output
    pure (output, true)
  else pure (output, false)

end CryptoPure.Leak.Gcm
