import Verif.Model.ChaCha20

/-! The stream of /repo/src/chacha20.rs with the block function as a parameter. -/

namespace CryptoPure.Model.ChaCha20

/-- `Stream`, src/chacha20.rs:12-17, with the function `ChaCha20::block` (src/chacha20.rs:90-94) of the object in place of the
object. -/
structure StreamWith where
  blockFn : U32 → Bytes
  counter : U32
  block : Bytes
  blockIndex : U8

/-- `Stream::new`, src/chacha20.rs:25-34; `setup` takes the place of `ChaCha20::new(key, ·)`. -/
def StreamWith.new (setup : Bytes → Option (U32 → Bytes)) (nonce : Bytes) : Option StreamWith := do
  let f ← setup nonce
  some { blockFn := f, counter := 0, block := f 0, blockIndex := 0 }

/-- `Iterator::next`, src/chacha20.rs:65-74. -/
def StreamWith.next (m : Mode) (s : StreamWith) : Option (U8 × StreamWith) := do
  let s ←
    if s.blockIndex = 64 then do
      let c ← addC m s.counter 1
      some { s with counter := c, block := s.blockFn c, blockIndex := 0 }
    else some s
  let byte ← s.block[s.blockIndex.toNat]?
  let i ← addC m s.blockIndex 1
  some (byte, { s with blockIndex := i })

/-- The loop of `Stream::process`, src/chacha20.rs:56-58. -/
def StreamWith.processLoop (m : Mode) : StreamWith → Bytes → Option (Bytes × StreamWith)
  | s, [] => some ([], s)
  | s, z :: zs => do
    let (y, s) ← s.next m
    let (out, s) ← StreamWith.processLoop m s zs
    some ((y ^^^ z) :: out, s)

/-- `Stream::process`, src/chacha20.rs:54-59. -/
def StreamWith.process (m : Mode) (s : StreamWith) (input output : Bytes) : Option (Bytes × StreamWith) := do
  assert (input.length == output.length)
  s.processLoop m input

/-- The stream object with its cipher object replaced by the block function of that object. -/
def Stream.toWith (s : Stream) : StreamWith :=
  { blockFn := ChaCha20.block s.chacha20, counter := s.counter, block := s.block, blockIndex := s.blockIndex }

end CryptoPure.Model.ChaCha20
