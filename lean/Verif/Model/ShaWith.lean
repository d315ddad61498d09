import Verif.Model.Sha2

/-! # src/sha2.rs with the compression function as a parameter

The same code as in Verif/Model/Sha2.lean, with `process` (src/sha2.rs:427-468) replaced by a parameter `f`. Verif/Proofs/ShaWith.lean
proves that with `process` as the parameter these are the functions of Verif/Model/Sha2.lean. -/

namespace CryptoPure.Model.ShaWith
open Sha2

section
variable {w : Nat} (P : Params w) (f : Oct w → Bytes → Oct w)

/-- The body of the `for chunk in ...chunks(..)` loop, src/sha2.rs:411-418. -/
def absorbChunk (s : Proc w) (chunk : Bytes) : Proc w :=
  if chunk.length < s.buffer.length then
    { s with buffer := copyAt s.buffer 0 chunk, offset := chunk.length }
  else { s with state := f s.state chunk }

/-- The whole loop, src/sha2.rs:411-418. -/
def absorbChunks (s : Proc w) (input : Bytes) : Proc w :=
  (chunks s.buffer.length input).foldl (absorbChunk f) s

/-- `update`, src/sha2.rs:396-419. -/
def update (m : Mode) (s : Proc w) (input : Bytes) : Option (Proc w) := do
  let len ← addC m s.len (BitVec.ofNat 64 input.length)
  let space := s.buffer.length - s.offset
  if s.offset > 0 then
    if input.length < space then
      some { s with len := len, buffer := copyAt s.buffer s.offset input,
                    offset := s.offset + input.length }
    else
      let buffer := copyAt s.buffer s.offset (input.take space)
      some (absorbChunks f
        { state := f s.state buffer, buffer := buffer, offset := 0, len := len }
        (input.drop space))
  else some (absorbChunks f { s with len := len } input)

/-- `pad`, src/sha2.rs:470-489. -/
def pad (m : Mode) (s : Proc w) : Option (Proc w) := do
  assert (s.offset < s.buffer.length)
  let buf := s.buffer.set s.offset 0x80
  let off := s.offset + 1
  let (st, buf, off) :=
    if off > P.blockSize - 2 * P.wordBytes then
      let buf := zeroRange buf off buf.length
      (f s.state buf, buf, 0)
    else (s.state, buf, off)
  let buf := zeroRange buf off (P.blockSize - 8)
  let bits ← mulC m 8 s.len
  some { s with state := st, offset := off,
                buffer := copyAt buf (P.blockSize - 8) (toBE 8 bits.toNat) }

/-- `write_digest` of the processor, src/sha2.rs:421-425. -/
def procWriteDigest (m : Mode) (s : Proc w) (outLen : Nat) : Option Bytes := do
  let s ← pad P f m s
  let st := f s.state s.buffer
  some ((st.toList.take (outLen / P.wordBytes)).flatMap fun x => toBE P.wordBytes x.toNat)

end

/-- `impl_function!`, src/sha2.rs:105-132. -/
def implFunction {w : Nat} (P : Params w) (f : Oct w → Bytes → Oct w) (iv : Oct w) (digestSize blockSize : Nat) : HashFunction where
  State := Proc w
  digestSize := digestSize
  blockSize := blockSize
  default := new P iv
  update := update f
  writeDigest := fun m s output => do
    assert (digestSize == output.length)
    procWriteDigest P f m s output.length

end CryptoPure.Model.ShaWith
