import Verif.Model.Aes
import Verif.Model.GHash
import Verif.Model.Util

/-! Model of /repo/src/gcm.rs, generic in the block cipher. `Gcm<E>` and `Processor<E>` are newtypes around the
cipher state, so `E.State` plays their role. -/

namespace CryptoPure.Model.Gcm
open Aes (BlockCipher)

variable (E : BlockCipher)

/-- `Gcm::new`, `Processor::new`, src/gcm.rs:34-36, 82-86. -/
def new (key : Bytes) : Option E.State := E.new key

/-- `counter`, src/gcm.rs:121-125 (`nonce` has 12 bytes). -/
def counter (nonce : Bytes) : Bytes := copyAt (zeros 16) 0 nonce

/-- `Processor::block`, src/gcm.rs:101-104: (keystream block, updated counter). -/
def block (st : E.State) (ctr : Bytes) (i : U32) : Bytes × Bytes :=
  let ctr := copyAt ctr 12 (toBE 4 i.toNat)
  (E.permute st ctr, ctr)

/-- The loop of `Processor::process`, src/gcm.rs:89-98. The list holds the remaining pairs of input and output
chunks, `i` the `start` of the `RangeFrom<u32>`, which `zip` advances first. Returns the new output chunks. -/
def processLoop (m : Mode) (st : E.State) : Bytes → U32 → List (Bytes × Bytes) → Option (List Bytes)
  | _, i, [] => do
    let _ ← rangeNext m i
    some []
  | ctr, i, (inp, out) :: rest => do
    let (i, next) ← rangeNext m i
    let (blk, ctr) := block E st ctr i
    let out := List.zipWith (fun b (p : U8 × U8) => p.1 ^^^ b) blk (inp.zip out)
    let rest ← processLoop m st ctr next rest
    some (out :: rest)

/-- `Processor::process`, src/gcm.rs:88-99: the new contents of `output` (same length as `input`). -/
def process (m : Mode) (st : E.State) (ctr input output : Bytes) : Option Bytes := do
  let cs ← processLoop E m st ctr 2 ((chunks 16 input).zip (chunks 16 output))
  some cs.flatten

/-- `Processor::ghash`, src/gcm.rs:115-118. -/
def ghash (m : Mode) (st : E.State) (a c : Bytes) : Option Bytes :=
  GHash.ghash m (E.permute st (zeros 16)) a c

/-- `Processor::tag`, src/gcm.rs:106-113. -/
def tag (m : Mode) (st : E.State) (ciphertext data ctr : Bytes) : Option Bytes := do
  let (t, _) := block E st ctr 1
  let h ← ghash E m st data ciphertext
  some (List.zipWith (· ^^^ ·) t h)

/-- `check_bounds`, src/gcm.rs:127-132 (`usize` is 64 bits; slices are shorter than `2^63`, so `+ 32` cannot
overflow). -/
def checkBounds (message ciphertext nonce data : Bytes) : Option Unit := do
  assert (12 == nonce.length)
  assert (message.length == ciphertext.length)
  assert (2 ^ 36 > message.length + 32)
  assert (2 ^ 61 > data.length)

/-- `Gcm::encrypt`, src/gcm.rs:44-49: (new contents of `output`, tag). The counter array is overwritten at
its last four bytes before every use. -/
def encrypt (m : Mode) (st : E.State) (input nonce data output : Bytes) : Option (Bytes × Bytes) := do
  checkBounds input output nonce data
  let ctr := counter nonce
  let output ← process E m st ctr input output
  let t ← tag E m st output data ctr
  some (output, t)

/-- `Gcm::decrypt`, src/gcm.rs:57-74: (new contents of `output`, returned `bool`). -/
def decrypt (m : Mode) (st : E.State) (input nonce data tag' output : Bytes) : Option (Bytes × Bool) := do
  checkBounds output input nonce data
  let ctr := counter nonce
  let expected ← tag E m st input data ctr
  let ok ← Util.verify16 expected tag'
  if ok then do
    let output ← process E m st ctr input output
    some (output, true)
  else some (output, false)

end CryptoPure.Model.Gcm
