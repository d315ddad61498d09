import Verif.Basic

/-! Model of /repo/src/chacha20.rs -/

namespace CryptoPure.Model.ChaCha20

/-- `quarter_round`, src/chacha20.rs:128-149. -/
def quarterRound (state : List U32) (i j k l : Nat) : List U32 :=
  let a := state.getD i 0
  let b := state.getD j 0
  let c := state.getD k 0
  let d := state.getD l 0
  let a := a + b
  let d := d ^^^ a
  let d := d.rotateLeft 16
  let c := c + d
  let b := b ^^^ c
  let b := b.rotateLeft 12
  let a := a + b
  let d := d ^^^ a
  let d := d.rotateLeft 8
  let c := c + d
  let b := b ^^^ c
  let b := b.rotateLeft 7
  (((state.set i a).set j b).set k c).set l d

/-- `inner_block`, src/chacha20.rs:117-126. -/
def innerBlock (state : List U32) : List U32 :=
  let state := quarterRound state 0 4 8 12
  let state := quarterRound state 1 5 9 13
  let state := quarterRound state 2 6 10 14
  let state := quarterRound state 3 7 11 15
  let state := quarterRound state 0 5 10 15
  let state := quarterRound state 1 6 11 12
  let state := quarterRound state 2 7 8 13
  quarterRound state 3 4 9 14

/-- `LittleEndian::read_u32_into`, used in src/chacha20.rs:101-102. -/
def readWords (b : Bytes) : List U32 := (chunks 4 b).map fun c => BitVec.ofNat 32 (leNat c)

/-- `setup_state`, src/chacha20.rs:96-103. Word 12 keeps its initial value 0 (src/chacha20.rs:85). -/
def setupState (key nonce : Bytes) : List U32 :=
  [0x61707865, 0x3320646e, 0x79622d32, 0x6b206574] ++ readWords key ++ [0] ++ readWords nonce

/-- `ChaCha20::new`, src/chacha20.rs:82-88: the `state` array. -/
def new (key nonce : Bytes) : Option (List U32) := do
  assert (32 == key.length)
  assert (12 == nonce.length)
  some (setupState key nonce)

/-- `transform_state`, src/chacha20.rs:105-115. -/
def transformState (self : List U32) (counter : U32) : List U32 :=
  let state := self.set 12 counter
  let state := (List.range 10).foldl (fun s _ => innerBlock s) state
  let state := List.zipWith (· + ·) state self
  state.set 12 (state.getD 12 0 + counter)

/-- `serialize_block`, src/chacha20.rs:151-155. -/
def serializeBlock (block : List U32) : Bytes := block.flatMap fun x => toLE 4 x.toNat

/-- `ChaCha20::block`, src/chacha20.rs:90-94. -/
def block (self : List U32) (counter : U32) : Bytes := serializeBlock (transformState self counter)

/-- `Stream`, src/chacha20.rs:12-17. -/
structure Stream where
  chacha20 : List U32
  counter : U32
  block : Bytes
  blockIndex : U8

/-- `Stream::new`, src/chacha20.rs:25-34. -/
def Stream.new (key nonce : Bytes) : Option Stream := do
  let c ← ChaCha20.new key nonce
  some { chacha20 := c, counter := 0, block := ChaCha20.block c 0, blockIndex := 0 }

/-- `Iterator::next` for `Stream`, src/chacha20.rs:65-74 (it always yields a byte).
`none` is a panic: counter overflow with checks, or an index out of bounds. -/
def Stream.next (m : Mode) (s : Stream) : Option (U8 × Stream) := do
  let s ←
    if s.blockIndex = 64 then do
      let c ← addC m s.counter 1
      some { s with counter := c, block := ChaCha20.block s.chacha20 c, blockIndex := 0 }
    else some s
  let byte ← s.block[s.blockIndex.toNat]?
  let i ← addC m s.blockIndex 1
  some (byte, { s with blockIndex := i })

/-- `Iterator::nth` on a `Stream` (the default method of `core` for the implementation at src/chacha20.rs:62-75, used as a
seek operation by the test at src/chacha20.rs:192, 197): `n` calls of `next` whose bytes are dropped, then one more. -/
def Stream.nth (m : Mode) : Nat → Stream → Option (U8 × Stream)
  | 0, s => s.next m
  | n + 1, s => do
    let (_, s) ← s.next m
    Stream.nth m n s

/-- The loop of `Stream::process`, src/chacha20.rs:56-58, on the remaining input: each iteration takes one stream
byte and writes one output byte. Returns the written bytes and the stream afterwards. -/
def Stream.processLoop (m : Mode) : Stream → Bytes → Option (Bytes × Stream)
  | s, [] => some ([], s)
  | s, z :: zs => do
    let (y, s) ← s.next m
    let (out, s) ← Stream.processLoop m s zs
    some ((y ^^^ z) :: out, s)

/-- `Stream::process`, src/chacha20.rs:54-59 (`output` is overwritten entirely). -/
def Stream.process (m : Mode) (s : Stream) (input output : Bytes) : Option (Bytes × Stream) := do
  assert (input.length == output.length)
  s.processLoop m input

/-- `Stream::encrypt`, src/chacha20.rs:41-43. -/
def Stream.encrypt := Stream.process
/-- `Stream::decrypt`, src/chacha20.rs:50-52. -/
def Stream.decrypt := Stream.process

end CryptoPure.Model.ChaCha20
