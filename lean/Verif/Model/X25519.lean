import Verif.Model.Fe

/-! Model of the X25519 functions of /repo/src/curve25519.rs -/

namespace CryptoPure.Model.X25519
open Fe

/-- The locals of `scalarmult` that live across iterations, src/curve25519.rs:524-534. -/
structure Ladder where
  x2 : Fe
  z2 : Fe
  x3 : Fe
  z3 : Fe
  swap : U32

/-- `e`, src/curve25519.rs:536-539: the clamped scalar bytes. -/
def clamp (n : Bytes) : Bytes :=
  let e := n.set 0 (n.getD 0 0 &&& 248)
  let e := e.set 31 (e.getD 31 0 &&& 127)
  e.set 31 (e.getD 31 0 ||| 64)

/-- Body of the `for pos` loop, src/curve25519.rs:548-588. -/
def ladderStep (m : Mode) (e : Bytes) (x1 : Fe) (s : Ladder) (pos : Nat) : Option Ladder := do
  let b : U32 := ((e.getD (pos / 8) 0) >>> (pos % 8)).setWidth 32 &&& 1
  let swap := s.swap ^^^ b
  let (x2, x3) := cswap s.x2 s.x3 swap
  let (z2, z3) := cswap s.z2 s.z3 swap
  let swap := b
  let tmp0 ← sub m x3 z3
  let tmp1 ← sub m x2 z2
  let x2 ← add m x2 z2
  let z2 ← add m x3 z3
  let z3 ← mul m tmp0 x2
  let z2 ← mul m z2 tmp1
  let tmp0 ← sq m tmp1
  let tmp1 ← sq m x2
  let x3 ← add m z3 z2
  let z2 ← sub m z3 z2
  let x2 ← mul m tmp1 tmp0
  let tmp1 ← sub m tmp1 tmp0
  let z2 ← sq m z2
  let z3 ← mul121666 m tmp1
  let x3 ← sq m x3
  let tmp0 ← add m tmp0 z3
  let z3 ← mul m x1 z2
  let z2 ← mul m tmp1 tmp0
  some { x2, z2, x3, z3, swap }

/-- `scalarmult`, src/curve25519.rs:521-596: the new contents of `q`. -/
def scalarmult (m : Mode) (n p : Bytes) : Option Bytes := do
  assert (32 == n.length)
  assert (32 == p.length)
  let e := clamp n
  let x1 ← fromBytes m p
  let s ← (List.range 255).reverse.foldlM (ladderStep m e x1)
    { x2 := Fe.one, z2 := Fe.zero, x3 := x1, z3 := Fe.one, swap := 0 }
  let (x2, _) := cswap s.x2 s.x3 s.swap
  let (z2, _) := cswap s.z2 s.z3 s.swap
  let z2 ← invert m z2
  let x2 ← mul m x2 z2
  toBytes m x2

/-- `gen_pk`, src/curve25519.rs:11-17. -/
def genPk (m : Mode) (secretKey : Bytes) : Option Bytes :=
  scalarmult m secretKey ((zeros 32).set 0 9)

/-- `dh`, src/curve25519.rs:24-28. -/
def dh (m : Mode) (publicKey secretKey : Bytes) : Option Bytes := scalarmult m secretKey publicKey

end CryptoPure.Model.X25519
