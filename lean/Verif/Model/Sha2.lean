import Verif.Model.Sha2Consts

/-! Model of /repo/src/sha2.rs. `Processor512` and `Processor256` come from one macro; the model is one
definition family parameterised by the macro's arguments. -/

namespace CryptoPure.Model.Sha2

/-- The arguments of `impl_processor!` (src/sha2.rs:372-385): word width `w`, block size in bytes,
round constants, number of rounds, rotation triples. `wordBytes` is `size_of::<$word>()`. -/
structure Params (w : Nat) where
  wordBytes : Nat
  blockSize : Nat
  k : List (BitVec w)
  rounds : Nat
  b0 : Nat × Nat × Nat
  b1 : Nat × Nat × Nat
  s0 : Nat × Nat × Nat
  s1 : Nat × Nat × Nat

/-- `impl_processor!(Processor512, ...)`, src/sha2.rs:518-530. -/
def P512 : Params 64 :=
  { wordBytes := 8, blockSize := 128, k := K512, rounds := 80,
    b0 := (28, 34, 39), b1 := (14, 18, 41), s0 := (1, 8, 7), s1 := (19, 61, 6) }

/-- `impl_processor!(Processor256, ...)`, src/sha2.rs:531-543. -/
def P256 : Params 32 :=
  { wordBytes := 4, blockSize := 64, k := K256, rounds := 64,
    b0 := (2, 13, 22), b1 := (6, 11, 25), s0 := (7, 18, 3), s1 := (17, 19, 10) }

/-- `Processor512` / `Processor256`, src/sha2.rs:357-370. -/
structure Proc (w : Nat) where
  state : Oct w
  buffer : Bytes
  offset : Nat
  len : U64

section
variable {w : Nat} (P : Params w)

/-- `ch`, src/sha2.rs:491-493. -/
def ch (x y z : BitVec w) : BitVec w := (x &&& y) ^^^ (~~~x &&& z)
/-- `maj`, src/sha2.rs:495-497. -/
def maj (x y z : BitVec w) : BitVec w := (x &&& y) ^^^ (x &&& z) ^^^ (y &&& z)
/-- `bsig0`, src/sha2.rs:499-501. -/
def bsig0 (x : BitVec w) : BitVec w :=
  x.rotateRight P.b0.1 ^^^ x.rotateRight P.b0.2.1 ^^^ x.rotateRight P.b0.2.2
/-- `bsig1`, src/sha2.rs:503-505. -/
def bsig1 (x : BitVec w) : BitVec w :=
  x.rotateRight P.b1.1 ^^^ x.rotateRight P.b1.2.1 ^^^ x.rotateRight P.b1.2.2
/-- `ssig0`, src/sha2.rs:507-509. -/
def ssig0 (x : BitVec w) : BitVec w :=
  x.rotateRight P.s0.1 ^^^ x.rotateRight P.s0.2.1 ^^^ (x >>> P.s0.2.2)
/-- `ssig1`, src/sha2.rs:511-513. -/
def ssig1 (x : BitVec w) : BitVec w :=
  x.rotateRight P.s1.1 ^^^ x.rotateRight P.s1.2.1 ^^^ (x >>> P.s1.2.2)

/-- `$read_into(input, &mut w[..16])`: big-endian words, src/sha2.rs:429. -/
def readWords (input : Bytes) : List (BitVec w) :=
  (chunks P.wordBytes input).map fun c => BitVec.ofNat w (beNat c)

/-- One iteration of the message-schedule loop, src/sha2.rs:430-435. Indices are in bounds because
`16 ≤ t < rounds = w.len()`. -/
def scheduleStep (ws : List (BitVec w)) (t : Nat) : List (BitVec w) :=
  ws.set t (ssig1 P (ws.getD (t - 2) 0) + ws.getD (t - 7) 0 + ssig0 P (ws.getD (t - 15) 0)
    + ws.getD (t - 16) 0)

/-- The message schedule array after the loop, src/sha2.rs:428-435. -/
def schedule (input : Bytes) : List (BitVec w) :=
  (List.range' 16 (P.rounds - 16)).foldl (scheduleStep P)
    (readWords P input ++ List.replicate (P.rounds - 16) 0)

/-- One round, src/sha2.rs:444-459. The eight local variables are the record fields. -/
def round (v : Oct w) (kw : BitVec w × BitVec w) : Oct w :=
  let t1 := v.h + bsig1 P v.e + ch v.e v.f v.g + kw.1 + kw.2
  let t2 := bsig0 P v.a + maj v.a v.b v.c
  { h := v.g, g := v.f, f := v.e, e := v.d + t1, d := v.c, c := v.b, b := v.a, a := t1 + t2 }

/-- `process`, src/sha2.rs:427-468. -/
def process (state : Oct w) (input : Bytes) : Oct w :=
  state.add ((P.k.zip (schedule P input)).foldl (round P) state)

/-- `new`, src/sha2.rs:387-394. -/
def new (iv : Oct w) : Proc w :=
  { state := iv, buffer := zeros P.blockSize, offset := 0, len := 0 }

/-- The body of the `for chunk in ...chunks(..)` loop, src/sha2.rs:411-418. -/
def absorbChunk (s : Proc w) (chunk : Bytes) : Proc w :=
  if chunk.length < s.buffer.length then
    { s with buffer := copyAt s.buffer 0 chunk, offset := chunk.length }
  else { s with state := process P s.state chunk }

/-- The whole loop, src/sha2.rs:411-418. -/
def absorbChunks (s : Proc w) (input : Bytes) : Proc w :=
  (chunks s.buffer.length input).foldl (absorbChunk P) s

/-- `update`, src/sha2.rs:396-419. `self.len += ...` is the only operation that can overflow. -/
def update (m : Mode) (s : Proc w) (input : Bytes) : Option (Proc w) := do
  let len ← addC m s.len (BitVec.ofNat 64 input.length)
  let space := s.buffer.length - s.offset
  if s.offset > 0 then
    if input.length < space then
      some { s with len := len, buffer := copyAt s.buffer s.offset input,
                    offset := s.offset + input.length }
    else
      let buffer := copyAt s.buffer s.offset (input.take space)
      some (absorbChunks P
        { state := process P s.state buffer, buffer := buffer, offset := 0, len := len }
        (input.drop space))
  else some (absorbChunks P { s with len := len } input)

/-- Set to zero the buffer bytes with index in `[lo, hi)`; the two `for byte in ...` loops of `pad`, src/sha2.rs:474-488. -/
def zeroRange (buf : Bytes) (lo hi : Nat) : Bytes :=
  buf.mapIdx fun i b => if lo ≤ i ∧ i < hi then 0 else b

/-- `pad`, src/sha2.rs:470-489. `none`: index out of bounds, or overflow of `8 * self.len` with checks. -/
def pad (m : Mode) (s : Proc w) : Option (Proc w) := do
  assert (s.offset < s.buffer.length)
  let buf := s.buffer.set s.offset 0x80
  let off := s.offset + 1
  let (st, buf, off) :=
    if off > P.blockSize - 2 * P.wordBytes then
      let buf := zeroRange buf off buf.length
      (process P s.state buf, buf, 0)
    else (s.state, buf, off)
  let buf := zeroRange buf off (P.blockSize - 8)
  let bits ← mulC m 8 s.len
  some { s with state := st, offset := off,
                buffer := copyAt buf (P.blockSize - 8) (toBE 8 bits.toNat) }

/-- `write_digest` of the processor, src/sha2.rs:421-425: the returned list is the new content of
`output`, whose length is `outLen` (a multiple of the word size in every use). -/
def procWriteDigest (m : Mode) (s : Proc w) (outLen : Nat) : Option Bytes := do
  let s ← pad P m s
  let st := process P s.state s.buffer
  some ((st.toList.take (outLen / P.wordBytes)).flatMap fun x => toBE P.wordBytes x.toNat)

end

/-- The trait `HashFunction` (src/sha2.rs:6-17) as a record: an implementor's state type, its constants and
its methods. `writeDigest` takes the old contents of `output` and returns the new ones. -/
structure HashFunction where
  State : Type
  digestSize : Nat
  blockSize : Nat
  default : State
  update : Mode → State → Bytes → Option State
  writeDigest : Mode → State → Bytes → Option Bytes

/-- `impl_function!`, src/sha2.rs:105-132. -/
def implFunction {w : Nat} (P : Params w) (iv : Oct w) (digestSize blockSize : Nat) : HashFunction where
  State := Proc w
  digestSize := digestSize
  blockSize := blockSize
  default := new P iv
  update := update P
  writeDigest := fun m s output => do
    assert (digestSize == output.length)
    procWriteDigest P m s output.length

/-- `Sha512`, src/sha2.rs:31, 134, 147-149. -/
def Sha512 : HashFunction := implFunction P512 iv512 64 128
/-- `Sha384`, src/sha2.rs:45, 135, 162-164. -/
def Sha384 : HashFunction := implFunction P512 iv384 48 128
/-- `Sha256`, src/sha2.rs:59, 136, 177-179. -/
def Sha256 : HashFunction := implFunction P256 iv256 32 64
/-- `Sha224`, src/sha2.rs:73, 137, 192-194. -/
def Sha224 : HashFunction := implFunction P256 iv224 28 64

/-- `MAX_DIGEST_SIZE`, src/sha2.rs:139. -/
def maxDigestSize : Nat := 64

/-- `impl_wrapper!`, src/sha2.rs:75-83. -/
def wrapper (H : HashFunction) (m : Mode) (message : Bytes) : Option Bytes := do
  let s ← H.update m H.default message
  H.writeDigest m s (zeros H.digestSize)

/-- `sha512`, src/sha2.rs:86-88. -/
def sha512 := wrapper Sha512
/-- `sha384`, src/sha2.rs:91-93. -/
def sha384 := wrapper Sha384
/-- `sha256`, src/sha2.rs:96-98. -/
def sha256 := wrapper Sha256
/-- `sha224`, src/sha2.rs:101-103. -/
def sha224 := wrapper Sha224

end CryptoPure.Model.Sha2
