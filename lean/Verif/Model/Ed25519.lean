import Verif.Model.Sc
import Verif.Model.EdTables
import Verif.Model.Sha2

/-! Model of /repo/src/ed25519.rs (the field part is in Verif/Model/Fe.lean, the scalar part in Verif/Model/Sc.lean).

`i8` values are integers; every `i8` operation goes through `ck8` (range check, or wrap-around in release mode).
Functions that assign to a `&mut` argument return its new value. An array index out of range is `none` (panic). -/

namespace CryptoPure.Model.Ed25519
open Fe

/-- Two's complement value of the low 8 bits: the `i8` arithmetic of src/ed25519.rs:1379-1396, 1490-1520, 1632-1675 in release. -/
def wrap8 (x : Int) : Int := (BitVec.ofInt 8 x).toInt

/-- Result of an `i8` addition, subtraction or negation whose exact value is `x`, as in
src/ed25519.rs:1387-1393, 1502-1506, 1657. -/
def ck8 (m : Mode) (x : Int) : Option Int :=
  if -128 ≤ x ∧ x ≤ 127 then some x
  else match m with
    | .debug => none
    | .release => some (wrap8 x)

/-- `x << k` on `i8`: the high bits are dropped in both modes; src/ed25519.rs:1390, 1502-1506, 1657. -/
def shl8 (x : Int) (k : Nat) : Int := wrap8 (x * 2 ^ k)

/-- `GeP2`, src/ed25519.rs:1205-1210. -/
structure GeP2 where
  x : Fe
  y : Fe
  z : Fe

/-- `GeP3`, src/ed25519.rs:1321-1327. -/
structure GeP3 where
  x : Fe
  y : Fe
  z : Fe
  t : Fe

/-- `GeP1p1`, src/ed25519.rs:1432-1438. -/
structure GeP1p1 where
  x : Fe
  y : Fe
  z : Fe
  t : Fe

/-- `GePrecomp`, src/ed25519.rs:1440-1445. -/
structure GePrecomp where
  yplusx : Fe
  yminusx : Fe
  xy2d : Fe

/-- `GeCached`, src/ed25519.rs:1457-1463. -/
structure GeCached where
  yplusx : Fe
  yminusx : Fe
  z : Fe
  t2d : Fe

/-- `GePrecomp::from`, src/ed25519.rs:1447-1455. -/
def precompFrom (x : List (List Int)) : GePrecomp :=
  { yplusx := x.getD 0 [], yminusx := x.getD 1 [], xy2d := x.getD 2 [] }

/-- `GeP2::from(&GeP3)`, src/ed25519.rs:1212-1220. -/
def p3ToP2 (p : GeP3) : GeP2 := { x := p.x, y := p.y, z := p.z }

/-- `GeP2::zero`, src/ed25519.rs:1312-1318. -/
def p2Zero : GeP2 := { x := Fe.zero, y := Fe.one, z := Fe.one }

/-- `GeP3::zero`, src/ed25519.rs:1422-1429. -/
def p3Zero : GeP3 := { x := Fe.zero, y := Fe.one, z := Fe.one, t := Fe.zero }

/-- `ge_add`, src/ed25519.rs:1465-1488. -/
def geAdd (m : Mode) (p : GeP3) (q : GeCached) : Option GeP1p1 := do
  let rx ← add m p.y p.x
  let ry ← sub m p.y p.x
  let rz ← mul m rx q.yplusx
  let ry ← mul m ry q.yminusx
  let rt ← mul m q.t2d p.t
  let rx ← mul m p.z q.z
  let t0 ← add m rx rx
  let rx ← sub m rz ry
  let ry ← add m ry rz
  let rz ← add m t0 rt
  let rt ← sub m t0 rt
  some { x := rx, y := ry, z := rz, t := rt }

/-- `ge_sub`, src/ed25519.rs:1674-1697. -/
def geSub (m : Mode) (p : GeP3) (q : GeCached) : Option GeP1p1 := do
  let rx ← add m p.y p.x
  let ry ← sub m p.y p.x
  let rz ← mul m rx q.yminusx
  let ry ← mul m ry q.yplusx
  let rt ← mul m q.t2d p.t
  let rx ← mul m p.z q.z
  let t0 ← add m rx rx
  let rx ← sub m rz ry
  let ry ← add m ry rz
  let rz ← sub m t0 rt
  let rt ← add m rt t0
  some { x := rx, y := ry, z := rz, t := rt }

/-- `ge_madd`, src/ed25519.rs:1524-1545. -/
def geMadd (m : Mode) (p : GeP3) (q : GePrecomp) : Option GeP1p1 := do
  let rx ← add m p.y p.x
  let ry ← sub m p.y p.x
  let rz ← mul m rx q.yplusx
  let ry ← mul m ry q.yminusx
  let rt ← mul m q.xy2d p.t
  let t0 ← add m p.z p.z
  let rx ← sub m rz ry
  let ry ← add m ry rz
  let rz ← add m t0 rt
  let rt ← sub m t0 rt
  some { x := rx, y := ry, z := rz, t := rt }

/-- `ge_msub`, src/ed25519.rs:1547-1568. -/
def geMsub (m : Mode) (p : GeP3) (q : GePrecomp) : Option GeP1p1 := do
  let rx ← add m p.y p.x
  let ry ← sub m p.y p.x
  let rz ← mul m rx q.yminusx
  let ry ← mul m ry q.yplusx
  let rt ← mul m q.xy2d p.t
  let t0 ← add m p.z p.z
  let rx ← sub m rz ry
  let ry ← add m ry rz
  let rz ← sub m t0 rt
  let rt ← add m rt t0
  some { x := rx, y := ry, z := rz, t := rt }

/-- `ge_p1p1_to_p2`, src/ed25519.rs:1570-1574. -/
def p1p1ToP2 (m : Mode) (p : GeP1p1) : Option GeP2 := do
  let x ← mul m p.x p.t
  let y ← mul m p.y p.z
  let z ← mul m p.z p.t
  some { x, y, z }

/-- `ge_p1p1_to_p3`, src/ed25519.rs:1576-1581. -/
def p1p1ToP3 (m : Mode) (p : GeP1p1) : Option GeP3 := do
  let x ← mul m p.x p.t
  let y ← mul m p.y p.z
  let z ← mul m p.z p.t
  let t ← mul m p.x p.y
  some { x, y, z, t }

/-- `ge_p2_dbl`, src/ed25519.rs:1583-1602. -/
def p2Dbl (m : Mode) (p : GeP2) : Option GeP1p1 := do
  let rx ← sq m p.x
  let rz ← sq m p.y
  let rt ← sq2 m p.z
  let ry ← add m p.x p.y
  let t0 ← sq m ry
  let ry ← add m rz rx
  let rz ← sub m rz rx
  let rx ← sub m t0 ry
  let rt ← sub m rt rz
  some { x := rx, y := ry, z := rz, t := rt }

/-- `ge_p3_dbl`, src/ed25519.rs:1604-1607. -/
def p3Dbl (m : Mode) (p : GeP3) : Option GeP1p1 := p2Dbl m (p3ToP2 p)

/-- `ge_p3_tobytes`, src/ed25519.rs:1609-1617, and `GeP2::to_bytes`, src/ed25519.rs:1299-1310 (the same code): the 32
bytes written. -/
def toBytes (m : Mode) (hx hy hz : Fe) : Option Bytes := do
  let recip ← invert m hz
  let x ← mul m hx recip
  let y ← mul m hy recip
  let s ← Fe.toBytes m y
  let n ← isNegative m x
  some (s.set 31 (s.getD 31 0 ^^^ (n <<< 7).setWidth 8))

/-- `ge_p3_to_cached`, src/ed25519.rs:1619-1624. -/
def p3ToCached (m : Mode) (p : GeP3) : Option GeCached := do
  let yplusx ← add m p.y p.x
  let yminusx ← sub m p.y p.x
  let t2d ← mul m p.t D2
  some { yplusx, yminusx, z := p.z, t2d }

/-- `ge_precomp_0`, src/ed25519.rs:1626-1630. -/
def precomp0 : GePrecomp := { yplusx := Fe.one, yminusx := Fe.one, xy2d := Fe.zero }

/-- `equal`, src/ed25519.rs:1632-1640. -/
def equal (b c : BitVec 8) : U8 :=
  let x := b ^^^ c
  let y : U32 := x.setWidth 32
  let y := y - 1
  let y := y >>> 31
  y.setWidth 8

/-- `negative`, src/ed25519.rs:1642-1646. -/
def negative (b : BitVec 8) : U8 :=
  let x : U64 := b.signExtend 64
  (x >>> 63).setWidth 8

/-- `cmov` on `GePrecomp`, src/ed25519.rs:1648-1652. -/
def cmov (t u : GePrecomp) (b : U8) : GePrecomp :=
  { yplusx := Fe.cmov t.yplusx u.yplusx (b.setWidth 32), yminusx := Fe.cmov t.yminusx u.yminusx (b.setWidth 32),
    xy2d := Fe.cmov t.xy2d u.xy2d (b.setWidth 32) }

/-- `select`, src/ed25519.rs:1654-1672. -/
def select (m : Mode) (pos : Nat) (b : Int) : Option GePrecomp := do
  let bv := BitVec.ofInt 8 b
  let bnegative := negative bv
  let babs ← ck8 m (b - ((-bnegative &&& bv) <<< 1).toInt)
  let babs := BitVec.ofInt 8 babs
  let row ← BASE[pos]?
  let t := precomp0
  let t := cmov t (precompFrom (row.getD 0 [])) (equal babs 1)
  let t := cmov t (precompFrom (row.getD 1 [])) (equal babs 2)
  let t := cmov t (precompFrom (row.getD 2 [])) (equal babs 3)
  let t := cmov t (precompFrom (row.getD 3 [])) (equal babs 4)
  let t := cmov t (precompFrom (row.getD 4 [])) (equal babs 5)
  let t := cmov t (precompFrom (row.getD 5 [])) (equal babs 6)
  let t := cmov t (precompFrom (row.getD 6 [])) (equal babs 7)
  let t := cmov t (precompFrom (row.getD 7 [])) (equal babs 8)
  let nxy2d ← neg m t.xy2d
  let minust : GePrecomp := { yplusx := t.yminusx, yminusx := t.yplusx, xy2d := nxy2d }
  some (cmov t minust bnegative)

/-- The first loop of `from_scalarmult_base`, src/ed25519.rs:1380-1383: the 64 nibbles. -/
def nibbles (a : Bytes) : List Int :=
  (List.range 32).flatMap fun i => [((a.getD i 0 &&& 15).toNat : Int), (((a.getD i 0 >>> 4) &&& 15).toNat : Int)]

/-- One iteration of the carry loop, src/ed25519.rs:1386-1391, on `(e, carry)`. -/
def recodeStep (m : Mode) (s : List Int × Int) (i : Nat) : Option (List Int × Int) := do
  let ei ← ck8 m (s.1.getD i 0 + s.2)
  let carry ← ck8 m (ei + 8)
  let carry := carry / 16
  let ei ← ck8 m (ei - shl8 carry 4)
  some (s.1.set i ei, carry)

/-- The digits `e`, src/ed25519.rs:1375, 1380-1392. -/
def recode (m : Mode) (a : Bytes) : Option (List Int) := do
  let (e, carry) ← (List.range 63).foldlM (recodeStep m) (nibbles a, 0)
  let e63 ← ck8 m (e.getD 63 0 + carry)
  some (e.set 63 e63)

/-- One iteration of the loops at src/ed25519.rs:1396-1401 and 1413-1418. -/
def baseStep (m : Mode) (e : List Int) (h : GeP3) (i : Nat) : Option GeP3 := do
  let t ← select m (i / 2) (e.getD i 0)
  let r ← geMadd m h t
  p1p1ToP3 m r

/-- `GeP3::from_scalarmult_base`, src/ed25519.rs:1374-1420; `a` has 64 bytes, of which 32 are used. -/
def scalarmultBase (m : Mode) (a : Bytes) : Option GeP3 := do
  let e ← recode m a
  let h ← ((List.range 32).map fun k => 2 * k + 1).foldlM (baseStep m e) p3Zero
  let r ← p3Dbl m h
  let s ← p1p1ToP2 m r
  let r ← p2Dbl m s
  let s ← p1p1ToP2 m r
  let r ← p2Dbl m s
  let s ← p1p1ToP2 m r
  let r ← p2Dbl m s
  let h ← p1p1ToP3 m r
  ((List.range 32).map fun k => 2 * k).foldlM (baseStep m e) h

/-- The loop at src/ed25519.rs:1507-1513 on the rest of the array. -/
def slideCarry : List Int → List Int
  | [] => []
  | x :: xs => if x = 0 then 1 :: xs else 0 :: slideCarry xs

/-- The loop `while b <= 6 && i + b < 256`, src/ed25519.rs:1500-1519; the list holds the values of `b` still to come. -/
def slideInner (m : Mode) (i : Nat) : List Nat → List Int → Option (List Int)
  | [], r => some r
  | b :: bs, r =>
    if i + b < 256 then
      if r.getD (i + b) 0 ≠ 0 then do
        let s ← ck8 m (r.getD i 0 + shl8 (r.getD (i + b) 0) b)
        if s ≤ 15 then
          slideInner m i bs ((r.set i s).set (i + b) 0)
        else do
          let s ← ck8 m (r.getD i 0 - shl8 (r.getD (i + b) 0) b)
          if s ≥ -15 then
            let r := r.set i s
            slideInner m i bs (r.take (i + b) ++ slideCarry (r.drop (i + b)))
          else some r
      else slideInner m i bs r
    else some r

/-- The bits, src/ed25519.rs:1493-1495. -/
def slideBits (a : Bytes) : List Int :=
  (List.range 256).map fun i => ((1 &&& (a.getD (i / 8) 0 >>> (i % 8)) : U8).toNat : Int)

/-- `slide`, src/ed25519.rs:1490-1522; indexing needs 32 bytes. -/
def slide (m : Mode) (a : Bytes) : Option (List Int) := do
  assert (32 ≤ a.length)
  (List.range 256).foldlM (fun r i => if r.getD i 0 ≠ 0 then slideInner m i [1, 2, 3, 4, 5, 6] r else some r) (slideBits a)

/-- The loop `while i >= 0 { if .. break; i -= 1 }`, src/ed25519.rs:1263-1268: `i + 1` at its exit. -/
def topIndex (a b : List Int) : Nat → Nat
  | 0 => 0
  | n + 1 => if a.getD n 0 ≠ 0 ∨ b.getD n 0 ≠ 0 then n + 1 else topIndex a b n

/-- Body of the main loop of `from_double_scalarmult_vartime`, src/ed25519.rs:1270-1295. The index `x as usize` is `x.toNat`; the
values are not negative here. -/
def doubleStep (m : Mode) (aslide bslide : List Int) (ai : List GeCached) (r : GeP2) (i : Nat) : Option GeP2 := do
  let t ← p2Dbl m r
  let t ← (
    if aslide.getD i 0 > 0 then do
      let u ← p1p1ToP3 m t
      let q ← ai[(aslide.getD i 0).toNat / 2]?
      geAdd m u q
    else if aslide.getD i 0 < 0 then do
      let u ← p1p1ToP3 m t
      let n ← ck8 m (-aslide.getD i 0)
      let q ← ai[n.toNat / 2]?
      geSub m u q
    else some t)
  let t ← (
    if bslide.getD i 0 > 0 then do
      let u ← p1p1ToP3 m t
      let q ← BI[(bslide.getD i 0).toNat / 2]?
      geMadd m u (precompFrom q)
    else if bslide.getD i 0 < 0 then do
      let u ← p1p1ToP3 m t
      let n ← ck8 m (-bslide.getD i 0)
      let q ← BI[n.toNat / 2]?
      geMsub m u (precompFrom q)
    else some t)
  p1p1ToP2 m t

/-- The table `ai`, src/ed25519.rs:1236-1259: the cached forms of `A, 3A, ..., 15A`. -/
def cachedTable (m : Mode) (ga : GeP3) : Option (List GeCached) := do
  let c0 ← p3ToCached m ga
  let t ← p3Dbl m ga
  let a2 ← p1p1ToP3 m t
  let next := fun (c : GeCached) => do
    let t ← geAdd m a2 c
    let u ← p1p1ToP3 m t
    p3ToCached m u
  let c1 ← next c0
  let c2 ← next c1
  let c3 ← next c2
  let c4 ← next c3
  let c5 ← next c4
  let c6 ← next c5
  let c7 ← next c6
  some [c0, c1, c2, c3, c4, c5, c6, c7]

/-- `GeP2::from_double_scalarmult_vartime`, src/ed25519.rs:1223-1297. -/
def doubleScalarmult (m : Mode) (a : Bytes) (ga : GeP3) (b : Bytes) : Option GeP2 := do
  assert (32 == b.length)
  let aslide ← slide m a
  let bslide ← slide m b
  let ai ← cachedTable m ga
  (List.range (topIndex aslide bslide 256)).reverse.foldlM (doubleStep m aslide bslide ai) p2Zero

/-- `GeP3::from_bytes_negate_vartime`, src/ed25519.rs:1330-1372. The outer `Option` is a panic. -/
def fromBytesNegate (m : Mode) (s : Bytes) : Option (Option GeP3) := do
  let hy ← fromBytes m s
  let hz := Fe.one
  let u ← sq m hy
  let v ← mul m u D
  let u ← sub m u hz
  let v ← add m v hz
  let v3 ← sq m v
  let v3 ← mul m v3 v
  let hx ← sq m v3
  let hx ← mul m hx v
  let hx ← mul m hx u
  let hx ← pow22523 m hx
  let hx ← mul m hx v3
  let hx ← mul m hx u
  let vxx ← sq m hx
  let vxx ← mul m vxx v
  let check ← sub m vxx u
  let c ← isNonzero m check
  let hx? ← (
    if c ≠ 0 then do
      let check ← add m vxx u
      let c ← isNonzero m check
      if c ≠ 0 then some none
      else do
        let hx ← mul m hx SQRTM1
        some (some hx)
    else some (some hx))
  match hx? with
  | none => some none
  | some hx => do
    let n ← isNegative m hx
    let hx ← (if n = (s.getD 31 0 >>> 7).setWidth 32 then neg m hx else some hx)
    let ht ← mul m hx hy
    some (some { x := hx, y := hy, z := hz, t := ht })

/-- `az[0] &= 248; az[31] &= 63; az[31] |= 64`, src/ed25519.rs:17-19 and 35-37. -/
def clampAz (az : Bytes) : Bytes :=
  let az := az.set 0 (az.getD 0 0 &&& 248)
  let az := az.set 31 (az.getD 31 0 &&& 63)
  az.set 31 (az.getD 31 0 ||| 64)

/-- `gen_pk`, src/ed25519.rs:13-24. -/
def genPk (m : Mode) (secretKey : Bytes) : Option Bytes := do
  assert (32 == secretKey.length)
  let az ← Sha2.sha512 m secretKey
  let az := clampAz az
  let a ← scalarmultBase m az
  toBytes m a.x a.y a.z

/-- Feed the parts to a fresh `Sha512` and take the digest: src/ed25519.rs:42-46, 55-59, 83-89. -/
def hashParts (m : Mode) (parts : List Bytes) : Option Bytes := do
  let s ← parts.foldlM (Sha2.Sha512.update m) Sha2.Sha512.default
  Sha2.Sha512.writeDigest m s (zeros Sha2.Sha512.digestSize)

/-- `sign`, src/ed25519.rs:31-64. -/
def sign (m : Mode) (message secretKey : Bytes) : Option Bytes := do
  assert (32 == secretKey.length)
  let az ← Sha2.sha512 m secretKey
  let az := clampAz az
  let a ← scalarmultBase m az
  let publicKey ← toBytes m a.x a.y a.z
  let nonce ← hashParts m [az.drop 32, message]
  let nonce ← Sc.reduce m nonce
  let signature := copyAt (zeros 64) 32 publicKey
  let r ← scalarmultBase m nonce
  let rb ← toBytes m r.x r.y r.z
  let signature := copyAt signature 0 rb
  let hram ← hashParts m [signature, message]
  let hram ← Sc.reduce m hram
  let s ← Sc.muladd m hram az nonce
  some (copyAt signature 32 s)

/-- `verify`, src/ed25519.rs:71-96. -/
def verify (m : Mode) (message signature publicKey : Bytes) : Option Bool := do
  assert (32 == publicKey.length)
  if signature.length ≠ 64 ∨ (signature.getD 63 0 &&& 224) ≠ 0 then some false
  else
    match ← fromBytesNegate m publicKey with
    | none => some false
    | some a => do
      let rcopy := signature.take 32
      let scopy := signature.drop 32
      let h ← hashParts m [rcopy, publicKey, message]
      let h ← Sc.reduce m h
      let r ← doubleScalarmult m h a scopy
      let rcheck ← toBytes m r.x r.y r.z
      some (verify32 rcheck rcopy == 0)

end CryptoPure.Model.Ed25519
