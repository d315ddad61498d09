import Verif.Leak.Basic
import Verif.Model.Sha2

/-! Recorded version of /repo/src/sha2.rs (see Verif/Model/Sha2.lean). `ch`, `maj`, `bsig0`, `bsig1`, `ssig0`, `ssig1` and
the body of a round have no conditional and no array access; they are taken from the model as they are. -/

namespace CryptoPure.Leak.Sha2
open Model.Sha2 (Params Proc ssig0 ssig1 round)

section
variable {w : Nat} (P : Params w)

/-- `$read_into(input, &mut w[..16])`, src/sha2.rs:429. -/
def readWords (input : Bytes) : L (List (BitVec w)) :=
  each (fun c => pure (BitVec.ofNat w (beNat c))) (chunks P.wordBytes input)

/-- One iteration of the message-schedule loop, src/sha2.rs:430-435. -/
def scheduleStep (ws : List (BitVec w)) (t : Nat) : L (List (BitVec w)) := do
  let w2 ← get ws (t - 2) 0
  let w7 ← get ws (t - 7) 0
  let w15 ← get ws (t - 15) 0
  let w16 ← get ws (t - 16) 0
  put ws t (ssig1 P w2 + w7 + ssig0 P w15 + w16)

/-- The message schedule, src/sha2.rs:428-435. -/
def schedule (input : Bytes) : L (List (BitVec w)) := do
  let ws ← readWords P input
  loop (scheduleStep P) (List.range' 16 (P.rounds - 16)) (ws ++ List.replicate (P.rounds - 16) 0)

/-- `process`, src/sha2.rs:427-468. -/
def process (state : Oct w) (input : Bytes) : L (Oct w) := do
  let ws ← schedule P input
  let v ← loop (fun v kw => pure (round P v kw)) (P.k.zip ws) state
  pure (state.add v)

/-- The body of the `for chunk in ...chunks(..)` loop, src/sha2.rs:411-418. -/
def absorbChunk (s : Proc w) (chunk : Bytes) : L (Proc w) := do
  if ← branch (decide (chunk.length < s.buffer.length)) then do
    let b ← copy s.buffer 0 chunk
    pure { s with buffer := b, offset := chunk.length }
  else do
    let st ← process P s.state chunk
    pure { s with state := st }

/-- The whole loop, src/sha2.rs:411-418. -/
def absorbChunks (s : Proc w) (input : Bytes) : L (Proc w) :=
  loop (absorbChunk P) (chunks s.buffer.length input) s

/-- `update`, src/sha2.rs:396-419. -/
def update (s : Proc w) (input : Bytes) : L (Proc w) := do
  let len := s.len + BitVec.ofNat 64 input.length
  let space := s.buffer.length - s.offset
  if ← branch (decide (s.offset > 0)) then do
    if ← branch (decide (input.length < space)) then do
      let b ← copy s.buffer s.offset input
      pure { s with len := len, buffer := b, offset := s.offset + input.length }
    else do
      let front ← slice input 0 space
      let buffer ← copy s.buffer s.offset front
      let st ← process P s.state buffer
      let back ← slice input space input.length
      absorbChunks P { state := st, buffer := buffer, offset := 0, len := len } back
  else absorbChunks P { s with len := len } input

/-- The loops of `pad` that clear the buffer from `lo` to `hi`, src/sha2.rs:474-476, 480-487. -/
def zeroRange (buf : Bytes) (lo hi : Nat) : L Bytes :=
  loop (fun b i => put b i 0) (List.range' lo (hi - lo)) buf

/-- `pad`, src/sha2.rs:470-489. -/
def pad (s : Proc w) : L (Proc w) := do
  check (decide (s.offset < s.buffer.length))
  let buf ← put s.buffer s.offset 0x80
  let off := s.offset + 1
  let (st, buf, off) ← (do
    if ← branch (decide (off > P.blockSize - 2 * P.wordBytes)) then do
      let buf ← zeroRange buf off buf.length
      let st ← process P s.state buf
      pure (st, buf, 0)
    else pure (s.state, buf, off))
  let buf ← zeroRange buf off (P.blockSize - 8)
  let bits : U64 := 8 * s.len
  let buf ← copy buf (P.blockSize - 8) (toBE 8 bits.toNat)
  pure { s with state := st, offset := off, buffer := buf }

/-- `write_digest` of the processor, src/sha2.rs:421-425. -/
def procWriteDigest (s : Proc w) (outLen : Nat) : L Bytes := do
  let s ← pad P s
  let st ← process P s.state s.buffer
  let cs ← each (fun x => pure (toBE P.wordBytes x.toNat)) (st.toList.take (outLen / P.wordBytes))
  pure cs.flatten

end

/-- The trait `HashFunction` (src/sha2.rs:6-17), recorded. -/
structure HashFunction where
  State : Type
  digestSize : Nat
  blockSize : Nat
  default : State
  update : State → Bytes → L State
  writeDigest : State → Bytes → L Bytes

/-- `impl_function!`, src/sha2.rs:105-132. -/
def implFunction {w : Nat} (P : Params w) (iv : Oct w) (digestSize blockSize : Nat) : HashFunction where
  State := Proc w
  digestSize := digestSize
  blockSize := blockSize
  default := Model.Sha2.new P iv
  update := update P
  writeDigest := fun s output => do
    check (digestSize == output.length)
    procWriteDigest P s output.length

/-- `Sha512`, src/sha2.rs:31, 134, 147-149. -/
def Sha512 : HashFunction := implFunction Model.Sha2.P512 Model.Sha2.iv512 64 128
/-- `Sha384`, src/sha2.rs:45, 135, 162-164. -/
def Sha384 : HashFunction := implFunction Model.Sha2.P512 Model.Sha2.iv384 48 128
/-- `Sha256`, src/sha2.rs:59, 136, 177-179. -/
def Sha256 : HashFunction := implFunction Model.Sha2.P256 Model.Sha2.iv256 32 64
/-- `Sha224`, src/sha2.rs:73, 137, 192-194. -/
def Sha224 : HashFunction := implFunction Model.Sha2.P256 Model.Sha2.iv224 28 64

/-- `impl_wrapper!`, src/sha2.rs:75-83; with the four hash functions, `sha512` to `sha224`, src/sha2.rs:86-103. -/
def wrapper (H : HashFunction) (message : Bytes) : L Bytes := do
  let s ← H.update H.default message
  H.writeDigest s (zeros H.digestSize)

end CryptoPure.Leak.Sha2
