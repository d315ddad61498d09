import Verif.Basic

/-! # FIPS 180-4 (SHA-224, SHA-256, SHA-384, SHA-512), byte-oriented, written from the standard. -/

namespace CryptoPure.Spec.Sha2

/-- Largest `r < 2^bits` with `r^k ≤ n`, found bit by bit from the top. -/
def iroot (k n : Nat) : Nat → Nat → Nat
  | 0, r => r
  | b + 1, r => iroot k n b (if (r + 2 ^ b) ^ k ≤ n then r + 2 ^ b else r)

/-- Trial division. -/
def isPrime (n : Nat) : Bool := 2 ≤ n && (List.range' 2 (n - 2)).all fun d => n % d != 0

/-- The first 80 prime numbers (2, 3, 5, ..., 409). -/
def primes : List Nat := (List.range 410).filter isPrime

/-- First `w` bits of the fractional part of the `k`-th root of `p`: `⌊2^w * p^(1/k)⌋ mod 2^w`. -/
def rootFrac (w k p : Nat) : BitVec w := BitVec.ofNat w (iroot k (p * 2 ^ (k * w)) (w + 8) 0)

/-- FIPS 180-4 §4.2.2/§4.2.3: the round constants are the first `w` bits of the fractional parts of the cube
roots of the first primes. -/
def K (w : Nat) (t : Nat) : BitVec w := rootFrac w 3 (primes.getD t 0)

/-- What distinguishes the 32-bit and the 64-bit variants. -/
structure Alg (w : Nat) where
  /-- block size in bytes -/
  blockBytes : Nat
  /-- size in bytes of the length field at the end of the padding -/
  lenBytes : Nat
  rounds : Nat
  Sigma0 : BitVec w → BitVec w
  Sigma1 : BitVec w → BitVec w
  sigma0 : BitVec w → BitVec w
  sigma1 : BitVec w → BitVec w

/-- FIPS 180-4 §4.1.2. -/
def alg256 : Alg 32 where
  blockBytes := 64
  lenBytes := 8
  rounds := 64
  Sigma0 x := x.rotateRight 2 ^^^ x.rotateRight 13 ^^^ x.rotateRight 22
  Sigma1 x := x.rotateRight 6 ^^^ x.rotateRight 11 ^^^ x.rotateRight 25
  sigma0 x := x.rotateRight 7 ^^^ x.rotateRight 18 ^^^ (x >>> 3)
  sigma1 x := x.rotateRight 17 ^^^ x.rotateRight 19 ^^^ (x >>> 10)

/-- FIPS 180-4 §4.1.3. -/
def alg512 : Alg 64 where
  blockBytes := 128
  lenBytes := 16
  rounds := 80
  Sigma0 x := x.rotateRight 28 ^^^ x.rotateRight 34 ^^^ x.rotateRight 39
  Sigma1 x := x.rotateRight 14 ^^^ x.rotateRight 18 ^^^ x.rotateRight 41
  sigma0 x := x.rotateRight 1 ^^^ x.rotateRight 8 ^^^ (x >>> 7)
  sigma1 x := x.rotateRight 19 ^^^ x.rotateRight 61 ^^^ (x >>> 6)

section
variable {w : Nat} (A : Alg w)

/-- §5.1: append `1000 0000`, then the least number of zero bytes such that the length field ends a block,
then the length in bits as a big-endian number `bits`. -/
def padding (len bits : Nat) : Bytes :=
  [0x80] ++ zeros ((2 * A.blockBytes - A.lenBytes - 1 - len % A.blockBytes) % A.blockBytes)
    ++ toBE A.lenBytes bits

/-- §5.2: word `i` (big-endian) of a block. -/
def wordOf (block : Bytes) (i : Nat) : BitVec w :=
  BitVec.ofNat w (beNat ((block.drop (i * (w / 8))).take (w / 8)))

/-- §6.2.2/§6.4.2 step 1: message schedule. -/
def W (block : Bytes) (t : Nat) : BitVec w :=
  if t < 16 then wordOf block t
  else A.sigma1 (W block (t - 2)) + W block (t - 7) + A.sigma0 (W block (t - 15)) + W block (t - 16)

/-- Ch. -/
def Ch (x y z : BitVec w) : BitVec w := (x &&& y) ^^^ (~~~x &&& z)
/-- Maj. -/
def Maj (x y z : BitVec w) : BitVec w := (x &&& y) ^^^ (x &&& z) ^^^ (y &&& z)

/-- Steps 2 and 3: the working variables after `t` rounds. -/
def vars (H : Oct w) (block : Bytes) : Nat → Oct w
  | 0 => H
  | t + 1 =>
    let v := vars H block t
    let T1 := v.h + A.Sigma1 v.e + Ch v.e v.f v.g + K w t + W A block t
    let T2 := A.Sigma0 v.a + Maj v.a v.b v.c
    { a := T1 + T2, b := v.a, c := v.b, d := v.c, e := v.d + T1, f := v.e, g := v.f, h := v.g }

/-- Step 4: intermediate hash value. -/
def compress (H : Oct w) (block : Bytes) : Oct w := H.add (vars A H block A.rounds)

/-- Hash of a padded message. -/
def hashBlocks (H : Oct w) (padded : Bytes) : Oct w :=
  (chunks A.blockBytes padded).foldl (compress A) H

/-- Digest of `msg` with initial value `iv`, `size` bytes, length field `bits`. -/
def digestWith (iv : Oct w) (size : Nat) (msg : Bytes) (bits : Nat) : Bytes :=
  ((hashBlocks A iv (msg ++ padding A msg.length bits)).toList.flatMap
    fun x => toBE (w / 8) x.toNat).take size

/-- The digest: the length field is the length in bits. -/
def digest (iv : Oct w) (size : Nat) (msg : Bytes) : Bytes :=
  digestWith A iv size msg (8 * msg.length)

end

/-- Initial value made of the first `w` bits of the fractional parts of the square roots of eight consecutive
primes, starting with prime number `i` (counting from 0). -/
def ivRoots (w i : Nat) : Oct w :=
  let r := fun j => rootFrac w 2 (primes.getD (i + j) 0)
  ⟨r 0, r 1, r 2, r 3, r 4, r 5, r 6, r 7⟩

/-- §5.3.2: SHA-224 takes the *second* 32 bits, i.e. the low halves of the SHA-384 words. -/
def iv224 : Oct 32 :=
  let v := ivRoots 64 8
  ⟨v.a.setWidth 32, v.b.setWidth 32, v.c.setWidth 32, v.d.setWidth 32,
   v.e.setWidth 32, v.f.setWidth 32, v.g.setWidth 32, v.h.setWidth 32⟩

/-- SHA-512 (§6.4). -/
def sha512 : Bytes → Bytes := digest alg512 (ivRoots 64 0) 64
/-- SHA-384 (§6.5). -/
def sha384 : Bytes → Bytes := digest alg512 (ivRoots 64 8) 48
/-- SHA-256 (§6.2). -/
def sha256 : Bytes → Bytes := digest alg256 (ivRoots 32 0) 32
/-- SHA-224 (§6.3). -/
def sha224 : Bytes → Bytes := digest alg256 iv224 28

end CryptoPure.Spec.Sha2
