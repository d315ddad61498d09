import Verif.Leak.ChaCha20
import Verif.Leak.Util
import Verif.Model.Poly1305

/-! Recorded version of /repo/src/poly1305.rs (see Verif/Model/Poly1305.lean). `load_r` has no conditional and uses literal
positions only; it is taken from the model as it is. -/

namespace CryptoPure.Leak.Poly1305
open Model.Poly1305 (ck32 PolyFunction loadR Poly1305)

/-- A `u32` operation without overflow checks. -/
def u32 (x : Nat) : L Nat := op (ck32 .release x)

/-- Loop of `add`, src/poly1305.rs:221-225. -/
def addLoop : Nat → List (Nat × U8) → L (List Nat × Nat)
  | u, [] => do
    let _ ← branch false
    pure ([], u)
  | u, (hj, cj) :: rest => do
    let _ ← branch true
    let t ← u32 (hj + cj.toNat)
    let u ← u32 (u + t)
    let (hs, u') ← addLoop (u >>> 8) rest
    pure ((u &&& 255) :: hs, u')

/-- `add`, src/poly1305.rs:219-227. -/
def add (h : List Nat) (c : Bytes) (lastByte : Nat) : L (List Nat) := do
  let (lo, u) ← addLoop 0 (h.zip c)
  let t ← u32 (u + lastByte)
  let top ← u32 (h.getD 16 0 + t)
  pure ((lo ++ h.drop lo.length).set 16 top)

/-- Carry loop of `squeeze`, src/poly1305.rs:189-193 and 197-201. -/
def carryLoop : Nat → List Nat → L (List Nat × Nat)
  | u, [] => do
    let _ ← branch false
    pure ([], u)
  | u, hj :: rest => do
    let _ ← branch true
    let u ← u32 (u + hj)
    let (hs, u') ← carryLoop (u >>> 8) rest
    pure ((u &&& 255) :: hs, u')

/-- `squeeze`, src/poly1305.rs:187-203. -/
def squeeze (h : List Nat) : L (List Nat) := do
  let (lo, u) ← carryLoop 0 (h.take 16)
  let u ← u32 (u + h.getD 16 0)
  let h16 := u &&& 3
  let u ← u32 (5 * (u >>> 2))
  let (lo, u) ← carryLoop u lo
  let h16 ← u32 (h16 + u)
  pure (lo ++ [h16])

/-- The two inner loops computing `h_r[i]`, src/poly1305.rs:174-180. -/
def mulRow (h : List Nat) (r : Bytes) (i : Nat) : L Nat := do
  let u ← loop (fun u j => do
    let hj ← get h j 0
    let rj ← get r (i - j) 0
    let p ← u32 (hj * rj.toNat)
    u32 (u + p)) (List.range' 0 (i + 1)) 0
  loop (fun u j => do
    let hj ← get h j 0
    let q ← u32 (320 * hj)
    let rj ← get r (i + 17 - j) 0
    let p ← u32 (q * rj.toNat)
    u32 (u + p)) (List.range' (i + 1) (17 - (i + 1))) u

/-- `mulmod`, src/poly1305.rs:171-185. -/
def mulmod (h : List Nat) (r : Bytes) : L (List Nat) := do
  let hr ← each (mulRow h r) (List.range 17)
  squeeze hr

/-- `PolyFunction::process`, src/poly1305.rs:166-169. -/
def polyProcess (f : PolyFunction) (input : Bytes) : L PolyFunction := do
  let h ← add f.h input 1
  let h ← mulmod h f.r
  pure { f with h := h }

/-- `freeze`, src/poly1305.rs:205-216. -/
def freeze (h : List Nat) : L (List Nat) := do
  let h' ← add h [5, 0, 0, 0, 0, 0, 0, 0, 0, 0, 0, 0, 0, 0, 0, 0] 252
  let negative : U32 := -(BitVec.ofNat 32 (h'.getD 16 0) >>> 7)
  each (fun p => pure
    (BitVec.ofNat 32 p.1 ^^^ (negative &&& (BitVec.ofNat 32 p.2 ^^^ BitVec.ofNat 32 p.1))).toNat) (h'.zip h)

/-- `write_value`, src/poly1305.rs:157-163. -/
def value (f : PolyFunction) : L Bytes := do
  let h ← freeze f.h
  let h ← add h f.constantTerm 0
  each (fun x => pure (BitVec.ofNat 8 x)) (h.take 16)

/-- Loop body of `Poly1305::process`, src/poly1305.rs:127-135. -/
def processChunk (f : PolyFunction) (chunk : Bytes) : L PolyFunction := do
  if ← branch (decide (chunk.length < 16)) then do
    let b ← copy (zeros 16) 0 chunk
    polyProcess f b
  else polyProcess f chunk

/-- `poly1305`, src/poly1305.rs:89-95, with `Poly1305::new`, `update`, `write_tag`, `process`, src/poly1305.rs:104-136. -/
def poly1305 (key data ciphertext : Bytes) : L Bytes := do
  let f ← loop processChunk (chunks 16 data) (PolyFunction.new key)
  let f ← loop processChunk (chunks 16 ciphertext) f
  let f ← polyProcess f (toLE 8 (BitVec.ofNat 64 data.length).toNat ++ toLE 8 (BitVec.ofNat 64 ciphertext.length).toNat)
  value f

/-- `ChaCha20Poly1305::tag`, `poly_key_gen`, src/poly1305.rs:76-86. -/
def tag (cipher : List U32) (ciphertext data : Bytes) : L Bytes := do
  let b ← ChaCha20.block cipher 0
  poly1305 (b.take 32) data ciphertext

/-- The loop of `process`, src/poly1305.rs:64-73. -/
def processLoop (cipher : List U32) : U32 → List (Bytes × Bytes) → L (List Bytes)
  | _, [] => do
    let _ ← branch false
    pure []
  | i, (inp, out) :: rest => do
    let _ ← branch true
    let blk ← ChaCha20.block cipher i
    let out ← each (fun (p : U8 × U8 × U8) => pure (p.2.1 ^^^ p.1)) (blk.zip (inp.zip out))
    let rest ← processLoop cipher (i + 1) rest
    pure (out :: rest)

/-- `process`, src/poly1305.rs:63-74. -/
def process (cipher : List U32) (input output : Bytes) : L Bytes := do
  let cs ← processLoop cipher 1 ((chunks 64 input).zip (chunks 64 output))
  pure cs.flatten

/-- `encrypt`, src/poly1305.rs:30-35. -/
def encrypt (key input nonce data output : Bytes) : L (Bytes × Bytes) := do
  check (input.length == output.length)
  let cipher ← ChaCha20.new key nonce
  let output ← process cipher input output
  let t ← tag cipher output data
  pure (output, t)

/-- `decrypt`, src/poly1305.rs:42-59. -/
def decrypt (key input nonce data tag' output : Bytes) : L (Bytes × Bool) := do
  check (output.length == input.length)
  let cipher ← ChaCha20.new key nonce
  let expected ← tag cipher input data
  let ok ← Util.verify16 expected tag'
  if ← branch ok then do
    let output ← process cipher input output
    pure (output, true)
  else pure (output, false)

end CryptoPure.Leak.Poly1305
