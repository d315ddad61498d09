import Verif.Leak.Basic
import Verif.Model.X25519

/-! Recorded version of the field arithmetic and the X25519 functions of /repo/src/curve25519.rs (see Verif/Model/Fe.lean,
Verif/Model/X25519.lean).

`assign_product`, `assign_square`, `assign_twice_square`, `mul121666`, `write_bytes` and the body of `assign_from_bytes` are
straight-line code on `i32` and `i64` locals: the model gives them as lists of assignments whose expressions have no
conditional and no indexing, so nothing is recorded for them. `cswap_with` and `cmov_from` are straight-line code on
literal positions. -/

namespace CryptoPure.Leak.Fe
open Model (Fe)
open SL (ck)

/-- `assign_sum`, `+=`, src/curve25519.rs:619-623, 991-1005. -/
def add (f g : Fe) : L Fe := each (fun p => op (ck .release .i32 (p.1 + p.2))) (f.zip g)

/-- `assign_difference`, `subtract_from`, `-=`, src/curve25519.rs:886-896, 1019-1033. -/
def sub (f g : Fe) : L Fe := each (fun p => op (ck .release .i32 (p.1 - p.2))) (f.zip g)

/-- `assign_neg`, src/ed25519.rs:168-172. -/
def neg (f : Fe) : L Fe := each (fun x => op (ck .release .i32 (-x))) f

/-- `assign_product`, `*=`, src/curve25519.rs:120-362, 758-760, 1007-1017. -/
def mul (f g : Fe) : L Fe := op (Model.Fe.mul .release f g)

/-- `assign_square`, `square`, src/curve25519.rs:364-519, 878-884. -/
def sq (f : Fe) : L Fe := op (Model.Fe.sq .release f)

/-- `assign_twice_square`, src/ed25519.rs:180-336. -/
def sq2 (f : Fe) : L Fe := op (Model.Fe.sq2 .release f)

/-- `mul121666`, src/curve25519.rs:762-828. -/
def mul121666 (f : Fe) : L Fe := op (Model.Fe.mul121666 .release f)

/-- `assign_from_bytes`, src/curve25519.rs:691-746. -/
def fromBytes (s : Bytes) : L Fe := do
  check (decide (32 ≤ s.length))
  op (Model.Fe.fromBytes .release s)

/-- `write_bytes`, src/curve25519.rs:898-988. -/
def toBytes (f : Fe) : L Bytes := op (Model.Fe.toBytes .release f)

/-- `square_many!`, src/curve25519.rs:57-63. -/
def squareMany (f : Fe) (i : Nat) : L Fe := loop (fun f _ => sq f) (List.range' 1 (i - 1)) f

/-- `fe_invert!`, src/curve25519.rs:65-118, 748-756. -/
def invert (z : Fe) : L Fe := do
  let t0 ← sq z
  let t1 ← sq t0
  let t1 ← sq t1
  let t1 ← mul t1 z
  let t0 ← mul t0 t1
  let t2 ← sq t0
  let t1 ← mul t1 t2
  let t2 ← sq t1
  let t2 ← squareMany t2 5
  let t1 ← mul t1 t2
  let t2 ← sq t1
  let t2 ← squareMany t2 10
  let t2 ← mul t2 t1
  let t3 ← sq t2
  let t3 ← squareMany t3 20
  let t2 ← mul t2 t3
  let t2 ← squareMany t2 11
  let t1 ← mul t1 t2
  let t2 ← sq t1
  let t2 ← squareMany t2 50
  let t2 ← mul t2 t1
  let t3 ← sq t2
  let t3 ← squareMany t3 100
  let t2 ← mul t2 t3
  let t2 ← squareMany t2 51
  let t1 ← mul t1 t2
  let t1 ← squareMany t1 6
  mul t1 t0

/-- `is_negative`, src/ed25519.rs:156-160. -/
def isNegative (f : Fe) : L (BitVec 32) := do
  let s ← toBytes f
  pure ((s.getD 0 0 &&& 1).setWidth 32)

end CryptoPure.Leak.Fe

namespace CryptoPure.Leak.X25519
open Model (Fe)
open Model.Fe (cswap)
open Model.X25519 (Ladder clamp)
open Fe (add sub mul sq mul121666 invert fromBytes toBytes)

/-- Body of the `for pos` loop, src/curve25519.rs:548-588. -/
def ladderStep (e : Bytes) (x1 : Model.Fe) (s : Ladder) (pos : Nat) : L Ladder := do
  let byte ← get e (pos / 8) 0
  let b : U32 := (byte >>> (pos % 8)).setWidth 32 &&& 1
  let swap := s.swap ^^^ b
  let (x2, x3) := cswap s.x2 s.x3 swap
  let (z2, z3) := cswap s.z2 s.z3 swap
  let swap := b
  let tmp0 ← sub x3 z3
  let tmp1 ← sub x2 z2
  let x2 ← add x2 z2
  let z2 ← add x3 z3
  let z3 ← mul tmp0 x2
  let z2 ← mul z2 tmp1
  let tmp0 ← sq tmp1
  let tmp1 ← sq x2
  let x3 ← add z3 z2
  let z2 ← sub z3 z2
  let x2 ← mul tmp1 tmp0
  let tmp1 ← sub tmp1 tmp0
  let z2 ← sq z2
  let z3 ← mul121666 tmp1
  let x3 ← sq x3
  let tmp0 ← add tmp0 z3
  let z3 ← mul x1 z2
  let z2 ← mul tmp1 tmp0
  pure { x2, z2, x3, z3, swap }

/-- `scalarmult`, src/curve25519.rs:521-596. -/
def scalarmult (n p : Bytes) : L Bytes := do
  check (32 == n.length)
  check (32 == p.length)
  let e := clamp n
  let x1 ← fromBytes p
  let s ← loop (ladderStep e x1) (List.range 255).reverse
    { x2 := Model.Fe.one, z2 := Model.Fe.zero, x3 := x1, z3 := Model.Fe.one, swap := 0 }
  let (x2, _) := cswap s.x2 s.x3 s.swap
  let (z2, _) := cswap s.z2 s.z3 s.swap
  let z2 ← invert z2
  let x2 ← mul x2 z2
  toBytes x2

/-- `gen_pk`, src/curve25519.rs:11-17. -/
def genPk (secretKey : Bytes) : L Bytes := scalarmult secretKey ((zeros 32).set 0 9)

/-- `dh`, src/curve25519.rs:24-28. -/
def dh (publicKey secretKey : Bytes) : L Bytes := scalarmult secretKey publicKey

end CryptoPure.Leak.X25519
