import Verif.Leak.Basic
import Verif.Model.ChaCha20

/-! Recorded version of /repo/src/chacha20.rs (see Verif/Model/ChaCha20.lean). `quarter_round` and `inner_block` have no
conditional and use literal positions only; they are taken from the model as they are. -/

namespace CryptoPure.Leak.ChaCha20
open Model.ChaCha20 (innerBlock Stream)

/-- `LittleEndian::read_u32_into`, used in src/chacha20.rs:101-102. -/
def readWords (b : Bytes) : L (List U32) := each (fun c => pure (BitVec.ofNat 32 (leNat c))) (chunks 4 b)

/-- `ChaCha20::new`, `setup_state`, src/chacha20.rs:82-103. -/
def new (key nonce : Bytes) : L (List U32) := do
  check (32 == key.length)
  check (12 == nonce.length)
  let k ← readWords key
  let n ← readWords nonce
  pure ([0x61707865, 0x3320646e, 0x79622d32, 0x6b206574] ++ k ++ [0] ++ n)

/-- `transform_state`, src/chacha20.rs:105-115. -/
def transformState (self : List U32) (counter : U32) : L (List U32) := do
  let state := self.set 12 counter
  let state ← loop (fun s _ => pure (innerBlock s)) (List.range 10) state
  let state ← each (fun p => pure (p.1 + p.2)) (state.zip self)
  pure (state.set 12 (state.getD 12 0 + counter))

/-- `serialize_block`, src/chacha20.rs:151-155. -/
def serializeBlock (block : List U32) : L Bytes := do
  let cs ← each (fun x => pure (toLE 4 x.toNat)) block
  pure cs.flatten

/-- `ChaCha20::block`, src/chacha20.rs:90-94. -/
def block (self : List U32) (counter : U32) : L Bytes := do
  let s ← transformState self counter
  serializeBlock s

/-- `Stream::new`, src/chacha20.rs:25-34. -/
def Stream.new (key nonce : Bytes) : L Stream := do
  let c ← ChaCha20.new key nonce
  let b ← block c 0
  pure { chacha20 := c, counter := 0, block := b, blockIndex := 0 }

/-- `Iterator::next` for `Stream`, src/chacha20.rs:65-74. -/
def Stream.next (s : Stream) : L (U8 × Stream) := do
  let s ← (do
    if ← branch (s.blockIndex == 64) then do
      let c := s.counter + 1
      let b ← block s.chacha20 c
      pure { s with counter := c, block := b, blockIndex := 0 }
    else pure s)
  let byte ← index s.block s.blockIndex.toNat
  pure (byte, { s with blockIndex := s.blockIndex + 1 })

/-- The loop of `Stream::process`, src/chacha20.rs:56-58. -/
def Stream.processLoop : Stream → Bytes → L (Bytes × Stream)
  | s, [] => do
    let _ ← branch false
    pure ([], s)
  | s, z :: zs => do
    let _ ← branch true
    let (y, s) ← Stream.next s
    let (out, s) ← Stream.processLoop s zs
    pure ((y ^^^ z) :: out, s)

/-- `Stream::encrypt`, `Stream::decrypt`, `Stream::process`, src/chacha20.rs:41-59. -/
def Stream.process (s : Stream) (input output : Bytes) : L (Bytes × Stream) := do
  check (input.length == output.length)
  Stream.processLoop s input

end CryptoPure.Leak.ChaCha20
