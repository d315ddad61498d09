import Verif.Leak.Fe
import Verif.Leak.Sha2
import Verif.Model.Ed25519

/-! Recorded version of the functions of /repo/src/ed25519.rs that handle secrets: `gen_pk` and `sign` (see
Verif/Model/Ed25519.lean). `verify`, which handles
public values only, is in Verif/Leak/EdVerify.lean. `equal`, `negative`, `cmov`, `sc_reduce`
and `sc_muladd` are straight-line code on literal positions. -/

namespace CryptoPure.Leak.Ed25519
open Model.Ed25519 (GeP2 GeP3 GeP1p1 GePrecomp ck8 shl8 precompFrom p3ToP2 p3Zero precomp0 equal negative cmov clampAz)
open Fe (add sub neg mul sq sq2 invert isNegative)

/-- `ge_madd`, src/ed25519.rs:1524-1545. -/
def geMadd (p : GeP3) (q : GePrecomp) : L GeP1p1 := do
  let rx ← add p.y p.x
  let ry ← sub p.y p.x
  let rz ← mul rx q.yplusx
  let ry ← mul ry q.yminusx
  let rt ← mul q.xy2d p.t
  let t0 ← add p.z p.z
  let rx ← sub rz ry
  let ry ← add ry rz
  let rz ← add t0 rt
  let rt ← sub t0 rt
  pure { x := rx, y := ry, z := rz, t := rt }

/-- `ge_p1p1_to_p2`, src/ed25519.rs:1570-1574. -/
def p1p1ToP2 (p : GeP1p1) : L GeP2 := do
  let x ← mul p.x p.t
  let y ← mul p.y p.z
  let z ← mul p.z p.t
  pure { x, y, z }

/-- `ge_p1p1_to_p3`, src/ed25519.rs:1576-1581. -/
def p1p1ToP3 (p : GeP1p1) : L GeP3 := do
  let x ← mul p.x p.t
  let y ← mul p.y p.z
  let z ← mul p.z p.t
  let t ← mul p.x p.y
  pure { x, y, z, t }

/-- `ge_p2_dbl`, src/ed25519.rs:1583-1602. -/
def p2Dbl (p : GeP2) : L GeP1p1 := do
  let rx ← sq p.x
  let rz ← sq p.y
  let rt ← sq2 p.z
  let ry ← add p.x p.y
  let t0 ← sq ry
  let ry ← add rz rx
  let rz ← sub rz rx
  let rx ← sub t0 ry
  let rt ← sub rt rz
  pure { x := rx, y := ry, z := rz, t := rt }

/-- `ge_p3_dbl`, src/ed25519.rs:1604-1607. -/
def p3Dbl (p : GeP3) : L GeP1p1 := p2Dbl (p3ToP2 p)

/-- `ge_p3_tobytes`, src/ed25519.rs:1609-1617. -/
def toBytes (hx hy hz : Model.Fe) : L Bytes := do
  let recip ← invert hz
  let x ← mul hx recip
  let y ← mul hy recip
  let s ← Fe.toBytes y
  let n ← isNegative x
  pure (s.set 31 (s.getD 31 0 ^^^ (n <<< 7).setWidth 8))

/-- `GePrecomp::from(BASE[pos][j])`, src/ed25519.rs:1660-1667. -/
def entry (pos j : Nat) : L GePrecomp := do
  let row ← index Model.Ed25519.BASE pos
  let x ← get row j []
  pure (precompFrom x)

/-- `select`, src/ed25519.rs:1654-1672. -/
def select (pos : Nat) (b : Int) : L GePrecomp := do
  let bv := BitVec.ofInt 8 b
  let bnegative := negative bv
  let babs ← op (ck8 .release (b - ((-bnegative &&& bv) <<< 1).toInt))
  let babs := BitVec.ofInt 8 babs
  let t := precomp0
  let u ← entry pos 0
  let t := cmov t u (equal babs 1)
  let u ← entry pos 1
  let t := cmov t u (equal babs 2)
  let u ← entry pos 2
  let t := cmov t u (equal babs 3)
  let u ← entry pos 3
  let t := cmov t u (equal babs 4)
  let u ← entry pos 4
  let t := cmov t u (equal babs 5)
  let u ← entry pos 5
  let t := cmov t u (equal babs 6)
  let u ← entry pos 6
  let t := cmov t u (equal babs 7)
  let u ← entry pos 7
  let t := cmov t u (equal babs 8)
  let nxy2d ← neg t.xy2d
  let minust : GePrecomp := { yplusx := t.yminusx, yminusx := t.yplusx, xy2d := nxy2d }
  pure (cmov t minust bnegative)

/-- The first loop of `from_scalarmult_base`, src/ed25519.rs:1380-1383. -/
def nibbles (a : Bytes) : L (List Int) := do
  let ps ← each (fun i => do
    let lo ← get a i 0
    let hi ← get a i 0
    pure [((lo &&& 15).toNat : Int), (((hi >>> 4) &&& 15).toNat : Int)]) (List.range 32)
  pure ps.flatten

/-- One iteration of the carry loop, src/ed25519.rs:1386-1391. -/
def recodeStep (s : List Int × Int) (i : Nat) : L (List Int × Int) := do
  let x ← get s.1 i 0
  let ei ← op (ck8 .release (x + s.2))
  let carry ← op (ck8 .release (ei + 8))
  let carry := carry / 16
  let ei ← op (ck8 .release (ei - shl8 carry 4))
  let e ← put s.1 i ei
  pure (e, carry)

/-- The digits `e`, src/ed25519.rs:1375, 1380-1392. -/
def recode (a : Bytes) : L (List Int) := do
  let ns ← nibbles a
  let (e, carry) ← loop recodeStep (List.range 63) (ns, 0)
  let x ← get e 63 0
  let e63 ← op (ck8 .release (x + carry))
  put e 63 e63

/-- One iteration of the loops at src/ed25519.rs:1396-1401 and 1413-1418. -/
def baseStep (e : List Int) (h : GeP3) (i : Nat) : L GeP3 := do
  let x ← get e i 0
  let t ← select (i / 2) x
  let r ← geMadd h t
  p1p1ToP3 r

/-- `GeP3::from_scalarmult_base`, src/ed25519.rs:1374-1420. -/
def scalarmultBase (a : Bytes) : L GeP3 := do
  let e ← recode a
  let h ← loop (baseStep e) ((List.range 32).map fun k => 2 * k + 1) p3Zero
  let r ← p3Dbl h
  let s ← p1p1ToP2 r
  let r ← p2Dbl s
  let s ← p1p1ToP2 r
  let r ← p2Dbl s
  let s ← p1p1ToP2 r
  let r ← p2Dbl s
  let h ← p1p1ToP3 r
  loop (baseStep e) ((List.range 32).map fun k => 2 * k) h

/-- `gen_pk`, src/ed25519.rs:13-24. -/
def genPk (secretKey : Bytes) : L Bytes := do
  check (32 == secretKey.length)
  let az ← Sha2.wrapper Sha2.Sha512 secretKey
  let az := clampAz az
  let a ← scalarmultBase az
  toBytes a.x a.y a.z

/-- Feed the parts to a fresh `Sha512` and take the digest. -/
def hashParts (parts : List Bytes) : L Bytes := do
  let s ← loop Sha2.Sha512.update parts Sha2.Sha512.default
  Sha2.Sha512.writeDigest s (zeros Sha2.Sha512.digestSize)

/-- `sign`, src/ed25519.rs:31-64. -/
def sign (message secretKey : Bytes) : L Bytes := do
  check (32 == secretKey.length)
  let az ← Sha2.wrapper Sha2.Sha512 secretKey
  let az := clampAz az
  let a ← scalarmultBase az
  let publicKey ← toBytes a.x a.y a.z
  let nonce ← hashParts [az.drop 32, message]
  let nonce ← op (Model.Sc.reduce .release nonce)
  let signature ← copy (zeros 64) 32 publicKey
  let r ← scalarmultBase nonce
  let rb ← toBytes r.x r.y r.z
  let signature ← copy signature 0 rb
  let hram ← hashParts [signature, message]
  let hram ← op (Model.Sc.reduce .release hram)
  let s ← op (Model.Sc.muladd .release hram az nonce)
  copy signature 32 s

end CryptoPure.Leak.Ed25519
