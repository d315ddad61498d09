import Verif.Leak.Ed25519

/-! Recorded version of `verify` of /repo/src/ed25519.rs and the functions only it uses (see Verif/Model/Ed25519.lean). All
its inputs are public; the record is used to bound its work. -/

namespace CryptoPure.Leak.Fe

/-- `verify_32`, src/curve25519.rs:31-37. -/
def verify32 (x y : Bytes) : L (BitVec 32) := do
  let d ← loop (fun acc p => pure (acc ||| (p.1 ^^^ p.2).setWidth 32)) (x.zip y) (0 : BitVec 32)
  pure ((1 &&& (d - 1).sshiftRight 8) - 1)

/-- `is_nonzero`, src/ed25519.rs:162-166. -/
def isNonzero (f : Model.Fe) : L (BitVec 32) := do
  let s ← toBytes f
  verify32 s (zeros 32)

/-- `pow22523`, src/curve25519.rs:830-876. -/
def pow22523 (z : Model.Fe) : L Model.Fe := do
  let t0 ← sq z
  let t1 ← sq t0
  let t1 ← sq t1
  let t1 ← mul t1 z
  let t0 ← mul t0 t1
  let t0 ← sq t0
  let t0 ← mul t0 t1
  let t1 ← sq t0
  let t1 ← squareMany t1 5
  let t0 ← mul t0 t1
  let t1 ← sq t0
  let t1 ← squareMany t1 10
  let t1 ← mul t1 t0
  let t2 ← sq t1
  let t2 ← squareMany t2 20
  let t1 ← mul t1 t2
  let t1 ← squareMany t1 11
  let t0 ← mul t0 t1
  let t1 ← sq t0
  let t1 ← squareMany t1 50
  let t1 ← mul t1 t0
  let t2 ← sq t1
  let t2 ← squareMany t2 100
  let t1 ← mul t1 t2
  let t1 ← squareMany t1 51
  let t0 ← mul t0 t1
  let t0 ← sq t0
  let t0 ← sq t0
  mul z t0

end CryptoPure.Leak.Fe

namespace CryptoPure.Leak.Ed25519
open Model.Ed25519 (GeP2 GeP3 GeP1p1 GePrecomp GeCached ck8 shl8 precompFrom p2Zero D D2 SQRTM1 BI)
open Fe (add sub neg mul sq invert isNegative isNonzero pow22523 verify32)

/-- `ge_add`, src/ed25519.rs:1465-1488. -/
def geAdd (p : GeP3) (q : GeCached) : L GeP1p1 := do
  let rx ← add p.y p.x
  let ry ← sub p.y p.x
  let rz ← mul rx q.yplusx
  let ry ← mul ry q.yminusx
  let rt ← mul q.t2d p.t
  let rx ← mul p.z q.z
  let t0 ← add rx rx
  let rx ← sub rz ry
  let ry ← add ry rz
  let rz ← add t0 rt
  let rt ← sub t0 rt
  pure { x := rx, y := ry, z := rz, t := rt }

/-- `ge_sub`, src/ed25519.rs:1674-1697. -/
def geSub (p : GeP3) (q : GeCached) : L GeP1p1 := do
  let rx ← add p.y p.x
  let ry ← sub p.y p.x
  let rz ← mul rx q.yminusx
  let ry ← mul ry q.yplusx
  let rt ← mul q.t2d p.t
  let rx ← mul p.z q.z
  let t0 ← add rx rx
  let rx ← sub rz ry
  let ry ← add ry rz
  let rz ← sub t0 rt
  let rt ← add rt t0
  pure { x := rx, y := ry, z := rz, t := rt }

/-- `ge_msub`, src/ed25519.rs:1547-1568. -/
def geMsub (p : GeP3) (q : GePrecomp) : L GeP1p1 := do
  let rx ← add p.y p.x
  let ry ← sub p.y p.x
  let rz ← mul rx q.yminusx
  let ry ← mul ry q.yplusx
  let rt ← mul q.xy2d p.t
  let t0 ← add p.z p.z
  let rx ← sub rz ry
  let ry ← add ry rz
  let rz ← sub t0 rt
  let rt ← add rt t0
  pure { x := rx, y := ry, z := rz, t := rt }

/-- `ge_p3_to_cached`, src/ed25519.rs:1619-1624. -/
def p3ToCached (p : GeP3) : L GeCached := do
  let yplusx ← add p.y p.x
  let yminusx ← sub p.y p.x
  let t2d ← mul p.t D2
  pure { yplusx, yminusx, z := p.z, t2d }

/-- The loop at src/ed25519.rs:1507-1513 on the rest of the array. -/
def slideCarry : List Int → L (List Int)
  | [] => do
    let _ ← branch false
    pure []
  | x :: xs => do
    let _ ← branch true
    if ← branch (decide (x = 0)) then pure (1 :: xs)
    else do
      let ys ← slideCarry xs
      pure (0 :: ys)

/-- The loop `while b <= 6 && i + b < 256`, src/ed25519.rs:1500-1519; the list holds the values of `b` still to come. -/
def slideInner (i : Nat) : List Nat → List Int → L (List Int)
  | [], r => do
    let _ ← branch false
    pure r
  | b :: bs, r => do
    let _ ← branch true
    if ← branch (decide (i + b < 256)) then do
      let x ← get r (i + b) 0
      if ← branch (decide (x ≠ 0)) then do
        let y ← get r i 0
        let s ← op (ck8 .release (y + shl8 x b))
        if ← branch (decide (s ≤ 15)) then do
          let r ← put r i s
          let r ← put r (i + b) 0
          slideInner i bs r
        else do
          let s ← op (ck8 .release (y - shl8 x b))
          if ← branch (decide (s ≥ -15)) then do
            let r ← put r i s
            let back ← slideCarry (r.drop (i + b))
            slideInner i bs (r.take (i + b) ++ back)
          else pure r
      else slideInner i bs r
    else pure r

/-- The bits, src/ed25519.rs:1493-1495. -/
def slideBits (a : Bytes) : L (List Int) :=
  each (fun i => do
    let x ← get a (i / 8) 0
    pure ((1 &&& (x >>> (i % 8)) : U8).toNat : Int)) (List.range 256)

/-- `slide`, src/ed25519.rs:1490-1522. -/
def slide (a : Bytes) : L (List Int) := do
  check (decide (32 ≤ a.length))
  let r ← slideBits a
  loop (fun r i => do
    let x ← get r i 0
    if ← branch (decide (x ≠ 0)) then slideInner i [1, 2, 3, 4, 5, 6] r else pure r) (List.range 256) r

/-- The loop `while i >= 0 { if .. break; i -= 1 }`, src/ed25519.rs:1263-1268. -/
def topIndex (a b : List Int) : Nat → L Nat
  | 0 => do
    let _ ← branch false
    pure 0
  | n + 1 => do
    let _ ← branch true
    let x ← get a n 0
    if ← branch (decide (x ≠ 0)) then pure (n + 1)
    else do
      let y ← get b n 0
      if ← branch (decide (y ≠ 0)) then pure (n + 1) else topIndex a b n

/-- The part of the main loop that adds a multiple of `A`, src/ed25519.rs:1273-1279. -/
def addA (ai : List GeCached) (x : Int) (t : GeP1p1) : L GeP1p1 := do
  if ← branch (decide (x > 0)) then do
    let u ← p1p1ToP3 t
    let q ← index ai (x.toNat / 2)
    geAdd u q
  else do
    if ← branch (decide (x < 0)) then do
      let u ← p1p1ToP3 t
      let n ← op (ck8 .release (-x))
      let q ← index ai (n.toNat / 2)
      geSub u q
    else pure t

/-- The part of the main loop that adds a multiple of the base point, src/ed25519.rs:1281-1291. -/
def addB (x : Int) (t : GeP1p1) : L GeP1p1 := do
  if ← branch (decide (x > 0)) then do
    let u ← p1p1ToP3 t
    let q ← index BI (x.toNat / 2)
    geMadd u (precompFrom q)
  else do
    if ← branch (decide (x < 0)) then do
      let u ← p1p1ToP3 t
      let n ← op (ck8 .release (-x))
      let q ← index BI (n.toNat / 2)
      geMsub u (precompFrom q)
    else pure t

/-- Body of the main loop of `from_double_scalarmult_vartime`, src/ed25519.rs:1270-1295. -/
def doubleStep (aslide bslide : List Int) (ai : List GeCached) (r : GeP2) (i : Nat) : L GeP2 := do
  let t ← p2Dbl r
  let x ← get aslide i 0
  let t ← addA ai x t
  let y ← get bslide i 0
  let t ← addB y t
  p1p1ToP2 t

/-- One entry of the table `ai` from the one before, src/ed25519.rs:1239-1259. -/
def nextCached (a2 : GeP3) (c : GeCached) : L GeCached := do
  let t ← geAdd a2 c
  let u ← p1p1ToP3 t
  p3ToCached u

/-- The table `ai`, src/ed25519.rs:1236-1259. -/
def cachedTable (ga : GeP3) : L (List GeCached) := do
  let c0 ← p3ToCached ga
  let t ← p3Dbl ga
  let a2 ← p1p1ToP3 t
  let c1 ← nextCached a2 c0
  let c2 ← nextCached a2 c1
  let c3 ← nextCached a2 c2
  let c4 ← nextCached a2 c3
  let c5 ← nextCached a2 c4
  let c6 ← nextCached a2 c5
  let c7 ← nextCached a2 c6
  pure [c0, c1, c2, c3, c4, c5, c6, c7]

/-- `GeP2::from_double_scalarmult_vartime`, src/ed25519.rs:1223-1297. -/
def doubleScalarmult (a : Bytes) (ga : GeP3) (b : Bytes) : L GeP2 := do
  check (32 == b.length)
  let aslide ← slide a
  let bslide ← slide b
  let ai ← cachedTable ga
  let n ← topIndex aslide bslide 256
  loop (doubleStep aslide bslide ai) (List.range n).reverse p2Zero

/-- The square root of `from_bytes_negate_vartime`, src/ed25519.rs:1347-1364. -/
def sqrtRatio (u v : Model.Fe) : L (Option Model.Fe) := do
  let v3 ← sq v
  let v3 ← mul v3 v
  let hx ← sq v3
  let hx ← mul hx v
  let hx ← mul hx u
  let hx ← pow22523 hx
  let hx ← mul hx v3
  let hx ← mul hx u
  let vxx ← sq hx
  let vxx ← mul vxx v
  let check ← sub vxx u
  let c ← isNonzero check
  if ← branch (decide (c ≠ 0)) then do
    let check ← add vxx u
    let c ← isNonzero check
    if ← branch (decide (c ≠ 0)) then pure none
    else do
      let hx ← mul hx SQRTM1
      pure (some hx)
  else pure (some hx)

/-- `GeP3::from_bytes_negate_vartime`, src/ed25519.rs:1330-1372. -/
def fromBytesNegate (s : Bytes) : L (Option GeP3) := do
  let hy ← Fe.fromBytes s
  let hz := Model.Fe.one
  let u ← sq hy
  let v ← mul u D
  let u ← sub u hz
  let v ← add v hz
  let hx? ← sqrtRatio u v
  match hx? with
  | none => pure none
  | some hx => do
    let n ← isNegative hx
    let hx ← (do
      if ← branch (decide (n = (s.getD 31 0 >>> 7).setWidth 32)) then neg hx else pure hx)
    let ht ← mul hx hy
    pure (some { x := hx, y := hy, z := hz, t := ht })

/-- `verify`, src/ed25519.rs:71-96. -/
def verify (message signature publicKey : Bytes) : L Bool := do
  check (32 == publicKey.length)
  if ← branch (decide (signature.length ≠ 64)) then pure false
  else do
    if ← branch (decide ((signature.getD 63 0 &&& 224) ≠ 0)) then pure false
    else do
      let a ← fromBytesNegate publicKey
      let _ ← branch a.isSome
      match a with
      | none => pure false
      | some a => do
        let rcopy := signature.take 32
        let scopy := signature.drop 32
        let h ← hashParts [rcopy, publicKey, message]
        let h ← op (Model.Sc.reduce .release h)
        let r ← doubleScalarmult h a scopy
        let rcheck ← toBytes r.x r.y r.z
        let c ← verify32 rcheck rcopy
        pure (c == 0)

end CryptoPure.Leak.Ed25519
