import Verif.Model.ChaCha20
import Verif.Model.Util

/-! Model of /repo/src/poly1305.rs. The `u32` limbs of the accumulator are `Nat`s; every `+` and `*` on them goes
through `ck32`. -/

namespace CryptoPure.Model.Poly1305

/-- Result of a `u32` operation whose exact value is `x`: panics (with checks) or wraps when out of range; the
arithmetic of src/poly1305.rs:170-226. -/
def ck32 (m : Mode) (x : Nat) : Option Nat :=
  if x < 2 ^ 32 then some x
  else match m with
    | .debug => none
    | .release => some (x % 2 ^ 32)

/-- `PolyFunction`, src/poly1305.rs:140-144. -/
structure PolyFunction where
  r : Bytes
  h : List Nat
  constantTerm : Bytes

/-- Loop of `add`, src/poly1305.rs:221-225, over the pairs `(h_j, c_j)`: new limbs and final `u`. -/
def addLoop (m : Mode) : Nat → List (Nat × U8) → Option (List Nat × Nat)
  | u, [] => some ([], u)
  | u, (hj, cj) :: rest => do
    let t ← ck32 m (hj + cj.toNat)
    let u ← ck32 m (u + t)
    let (hs, u') ← addLoop m (u >>> 8) rest
    some ((u &&& 255) :: hs, u')

/-- `add`, src/poly1305.rs:219-227: `c` has 16 bytes, `h` 17 limbs. -/
def add (m : Mode) (h : List Nat) (c : Bytes) (lastByte : Nat) : Option (List Nat) := do
  let (lo, u) ← addLoop m 0 (h.zip c)
  let t ← ck32 m (u + lastByte)
  let top ← ck32 m (h.getD 16 0 + t)
  some ((lo ++ h.drop lo.length).set 16 top)

/-- Carry loop over the first limbs in `squeeze`, src/poly1305.rs:189-193 and 197-201. -/
def carryLoop (m : Mode) : Nat → List Nat → Option (List Nat × Nat)
  | u, [] => some ([], u)
  | u, hj :: rest => do
    let u ← ck32 m (u + hj)
    let (hs, u') ← carryLoop m (u >>> 8) rest
    some ((u &&& 255) :: hs, u')

/-- `squeeze`, src/poly1305.rs:187-203. -/
def squeeze (m : Mode) (h : List Nat) : Option (List Nat) := do
  let (lo, u) ← carryLoop m 0 (h.take 16)
  let u ← ck32 m (u + h.getD 16 0)
  let h16 := u &&& 3
  let u ← ck32 m (5 * (u >>> 2))
  let (lo, u) ← carryLoop m u lo
  let h16 ← ck32 m (h16 + u)
  some (lo ++ [h16])

/-- The two inner loops computing `h_r[i]`, src/poly1305.rs:174-180. -/
def mulRow (m : Mode) (h : List Nat) (r : Bytes) (i : Nat) : Option Nat := do
  let u ← (List.range' 0 (i + 1)).foldlM (fun u j => do
    let p ← ck32 m (h.getD j 0 * (r.getD (i - j) 0).toNat)
    ck32 m (u + p)) 0
  (List.range' (i + 1) (17 - (i + 1))).foldlM (fun u j => do
    let q ← ck32 m (320 * h.getD j 0)
    let p ← ck32 m (q * (r.getD (i + 17 - j) 0).toNat)
    ck32 m (u + p)) u

/-- `mulmod`, src/poly1305.rs:171-185. -/
def mulmod (m : Mode) (h : List Nat) (r : Bytes) : Option (List Nat) := do
  let hr ← (List.range 17).mapM (mulRow m h r)
  squeeze m hr

/-- `PolyFunction::process`, src/poly1305.rs:166-169. -/
def PolyFunction.process (m : Mode) (f : PolyFunction) (input : Bytes) : Option PolyFunction := do
  let h ← add m f.h input 1
  let h ← mulmod m h f.r
  some { f with h := h }

/-- `freeze`, src/poly1305.rs:205-216. `(x >> 7).wrapping_neg()` is a `u32` negation. -/
def freeze (m : Mode) (h : List Nat) : Option (List Nat) := do
  let h' ← add m h [5, 0, 0, 0, 0, 0, 0, 0, 0, 0, 0, 0, 0, 0, 0, 0] 252
  let negative : U32 := -(BitVec.ofNat 32 (h'.getD 16 0) >>> 7)
  some (List.zipWith (fun hj ho =>
    (BitVec.ofNat 32 hj ^^^ (negative &&& (BitVec.ofNat 32 ho ^^^ BitVec.ofNat 32 hj))).toNat) h' h)

/-- `load_r`, src/poly1305.rs:229-248. -/
def loadR (key : Bytes) : Bytes :=
  let k := fun i => key.getD i (0 : U8)
  [k 0, k 1, k 2, k 3 &&& 15, k 4 &&& 252, k 5, k 6, k 7 &&& 15, k 8 &&& 252, k 9, k 10, k 11 &&& 15,
   k 12 &&& 252, k 13, k 14, k 15 &&& 15, 0]

/-- `PolyFunction::new`, src/poly1305.rs:147-155. -/
def PolyFunction.new (key : Bytes) : PolyFunction :=
  { r := loadR key, h := List.replicate 17 0, constantTerm := key.drop 16 }

/-- `write_value`, src/poly1305.rs:157-163 (zip with the 16 output bytes; `as u8` truncates). -/
def PolyFunction.value (m : Mode) (f : PolyFunction) : Option Bytes := do
  let h ← freeze m f.h
  let h ← add m h f.constantTerm 0
  some ((h.take 16).map fun x => BitVec.ofNat 8 x)

/-- `Poly1305`, src/poly1305.rs:97-101. -/
structure Poly1305 where
  function : PolyFunction
  dataLen : U64
  ciphertextLen : U64

/-- Loop body of `Poly1305::process`, src/poly1305.rs:127-135. -/
def processChunk (m : Mode) (f : PolyFunction) (chunk : Bytes) : Option PolyFunction :=
  if chunk.length < 16 then f.process m (copyAt (zeros 16) 0 chunk) else f.process m chunk

/-- `Poly1305::process`, src/poly1305.rs:126-136. -/
def Poly1305.process (m : Mode) (p : Poly1305) (input : Bytes) : Option Poly1305 := do
  let f ← (chunks 16 input).foldlM (processChunk m) p.function
  some { p with function := f }

/-- `Poly1305::new`, src/poly1305.rs:104-112. -/
def Poly1305.new (m : Mode) (key data : Bytes) : Option Poly1305 :=
  Poly1305.process m { function := PolyFunction.new key, dataLen := BitVec.ofNat 64 data.length,
                       ciphertextLen := 0 } data

/-- `Poly1305::update`, src/poly1305.rs:114-117. -/
def Poly1305.update (m : Mode) (p : Poly1305) (input : Bytes) : Option Poly1305 := do
  let l ← addC m p.ciphertextLen (BitVec.ofNat 64 input.length)
  Poly1305.process m { p with ciphertextLen := l } input

/-- `Poly1305::write_tag`, src/poly1305.rs:119-124. -/
def Poly1305.writeTag (m : Mode) (p : Poly1305) : Option Bytes := do
  let f ← p.function.process m (toLE 8 p.dataLen.toNat ++ toLE 8 p.ciphertextLen.toNat)
  f.value m

/-- `poly1305`, src/poly1305.rs:89-95. -/
def poly1305 (m : Mode) (key data ciphertext : Bytes) : Option Bytes := do
  let mac ← Poly1305.new m key data
  let mac ← mac.update m ciphertext
  mac.writeTag m

/-- `ChaCha20Poly1305::new`, src/poly1305.rs:18-23: the stored key. -/
def new (key : Bytes) : Option Bytes := do
  assert (32 == key.length)
  some key

/-- `poly_key_gen`, src/poly1305.rs:81-86. -/
def polyKeyGen (cipher : List U32) : Bytes := (ChaCha20.block cipher 0).take 32

/-- `ChaCha20Poly1305::tag`, src/poly1305.rs:76-79. -/
def tag (m : Mode) (cipher : List U32) (ciphertext data : Bytes) : Option Bytes :=
  poly1305 m (polyKeyGen cipher) data ciphertext

/-- The loop of `process`, src/poly1305.rs:64-73, on the remaining chunk pairs; `i` is the `start` of the
`RangeFrom<u32>`, advanced first by `zip`. -/
def processLoop (m : Mode) (cipher : List U32) : U32 → List (Bytes × Bytes) → Option (List Bytes)
  | i, [] => do
    let _ ← rangeNext m i
    some []
  | i, (inp, out) :: rest => do
    let (i, next) ← rangeNext m i
    let blk := ChaCha20.block cipher i
    let out := List.zipWith (fun b (p : U8 × U8) => p.1 ^^^ b) blk (inp.zip out)
    let rest ← processLoop m cipher next rest
    some (out :: rest)

/-- `process`, src/poly1305.rs:63-74: new contents of `output` (same length as `input`). -/
def process (m : Mode) (cipher : List U32) (input output : Bytes) : Option Bytes := do
  let cs ← processLoop m cipher 1 ((chunks 64 input).zip (chunks 64 output))
  some cs.flatten

/-- `encrypt`, src/poly1305.rs:30-35: (new contents of `output`, tag). -/
def encrypt (m : Mode) (key input nonce data output : Bytes) : Option (Bytes × Bytes) := do
  assert (input.length == output.length)
  let cipher ← ChaCha20.new key nonce
  let output ← process m cipher input output
  let t ← tag m cipher output data
  some (output, t)

/-- `decrypt`, src/poly1305.rs:42-59: (new contents of `output`, returned `bool`). -/
def decrypt (m : Mode) (key input nonce data tag' output : Bytes) : Option (Bytes × Bool) := do
  assert (output.length == input.length)
  let cipher ← ChaCha20.new key nonce
  let expected ← tag m cipher input data
  let ok ← Util.verify16 expected tag'
  if ok then do
    let output ← process m cipher input output
    some (output, true)
  else some (output, false)

end CryptoPure.Model.Poly1305
