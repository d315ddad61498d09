/-!
# Shared vocabulary: machine words, byte strings, build modes, panics

Nothing in this file is specific to one cryptographic algorithm.
-/

namespace CryptoPure

/-- `u8`. -/
abbrev U8 := BitVec 8
/-- `u32`. -/
abbrev U32 := BitVec 32
/-- `u64`. -/
abbrev U64 := BitVec 64
/-- A byte slice / byte array. -/
abbrev Bytes := List U8

/-- How the crate is compiled: `debug` = overflow checks on (arithmetic overflow panics),
`release` = overflow checks off (arithmetic overflow wraps). -/
inductive Mode where
  | debug
  | release
deriving DecidableEq, Repr

/-- `assert!(b)`: `none` is a panic. -/
def assert (b : Bool) : Option Unit := if b then some () else none

/-- Rust `x + y` on an unsigned type of width `w`. -/
def addC (m : Mode) {w : Nat} (x y : BitVec w) : Option (BitVec w) :=
  if x.toNat + y.toNat < 2 ^ w then some (x + y)
  else match m with
    | .debug => none
    | .release => some (x + y)

/-- Rust `x * y` on an unsigned type of width `w`. -/
def mulC (m : Mode) {w : Nat} (x y : BitVec w) : Option (BitVec w) :=
  if x.toNat * y.toNat < 2 ^ w then some (x * y)
  else match m with
    | .debug => none
    | .release => some (x * y)

/-- `Iterator::next` of a Rust `RangeFrom` over an unsigned type of width `w`
(`let n = Step::forward(self.start, 1); Some(mem::replace(&mut self.start, n))`):
the successor is computed *before* the current value is returned, so with overflow checks
asking for the maximal value panics. Returns (value yielded, new `start`). -/
def rangeNext (m : Mode) {w : Nat} (start : BitVec w) : Option (BitVec w × BitVec w) := do
  let n ← addC m start 1
  some (start, n)

/-- Rust `slice.chunks(n)` for `n > 0` (fuel = length, enough because each step drops `n > 0` items). -/
def chunksAux {α : Type} (n : Nat) : Nat → List α → List (List α)
  | 0, _ => []
  | _, [] => []
  | fuel + 1, l => l.take n :: chunksAux n fuel (l.drop n)

/-- Rust `slice.chunks(n)`: consecutive pieces of length `n`, the last one possibly shorter. -/
def chunks {α : Type} (n : Nat) (l : List α) : List (List α) := chunksAux n l.length l

/-- `buf[off..off + src.len()].copy_from_slice(src)`, for `off + src.len() ≤ buf.len()`. -/
def copyAt {α : Type} (buf : List α) (off : Nat) (src : List α) : List α :=
  buf.take off ++ src ++ buf.drop (off + src.length)

/-- Number encoded by a little-endian byte string. -/
def leNat : Bytes → Nat
  | [] => 0
  | b :: bs => b.toNat + 256 * leNat bs

/-- Number encoded by a big-endian byte string. -/
def beNat (bs : Bytes) : Nat := leNat bs.reverse

/-- The `k` low-order bytes of `x`, little-endian. -/
def toLE : Nat → Nat → Bytes
  | 0, _ => []
  | k + 1, x => BitVec.ofNat 8 x :: toLE k (x / 256)

/-- The `k` low-order bytes of `x`, big-endian. -/
def toBE (k x : Nat) : Bytes := (toLE k x).reverse

/-- `k` zero bytes. -/
def zeros (k : Nat) : Bytes := List.replicate k 0

/-- Bytewise xor of two byte strings (to the shorter length). -/
def xorBytes (x y : Bytes) : Bytes := List.zipWith (· ^^^ ·) x y

/-- An array of eight words. -/
structure Oct (w : Nat) where
  a : BitVec w
  b : BitVec w
  c : BitVec w
  d : BitVec w
  e : BitVec w
  f : BitVec w
  g : BitVec w
  h : BitVec w
deriving DecidableEq, Repr

namespace Oct
/-- The eight words in index order. -/
def toList {w : Nat} (s : Oct w) : List (BitVec w) := [s.a, s.b, s.c, s.d, s.e, s.f, s.g, s.h]
/-- Elementwise addition modulo `2^w`. -/
def add {w : Nat} (s t : Oct w) : Oct w :=
  ⟨s.a + t.a, s.b + t.b, s.c + t.c, s.d + t.d, s.e + t.e, s.f + t.f, s.g + t.g, s.h + t.h⟩
end Oct

end CryptoPure
