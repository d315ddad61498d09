import Verif.Basic

/-! # NIST SP 800-38D (GCM) with 96-bit IVs, over an arbitrary 16-byte block cipher `E : Bytes → Bytes`. -/

namespace CryptoPure.Spec.Gcm

/-- A block as a bit string: bit 0 is the leftmost bit (`getMsbD`). -/
def bits (block : Bytes) : BitVec 128 := BitVec.ofNat 128 (beNat block)
/-- The block of a bit string. -/
def bytes (x : BitVec 128) : Bytes := toBE 16 x.toNat

/-- `R = 11100001 || 0^120`, §6.3. -/
def R : BitVec 128 := BitVec.ofNat 128 (0xe1 * 2 ^ 120)

/-- `V_(i+1)` from `V_i`, §6.3. -/
def nextV (v : BitVec 128) : BitVec 128 := if v.getMsbD 127 then (v >>> 1) ^^^ R else v >>> 1

/-- `(Z_i, V_i)` after `i` steps, §6.3 algorithm 1. -/
def mulSteps (x y : BitVec 128) : Nat → BitVec 128 × BitVec 128
  | 0 => (0, y)
  | i + 1 =>
    let (z, v) := mulSteps x y i
    (if x.getMsbD i then z ^^^ v else z, nextV v)

/-- The product of blocks `X • Y`, §6.3 algorithm 1. -/
def mul (x y : BitVec 128) : BitVec 128 := (mulSteps x y 128).1

/-- `GHASH_H`, §6.4 algorithm 2: `Y_0 = 0`, `Y_i = (Y_(i-1) xor X_i) • H`. -/
def ghash (h : BitVec 128) (blocks : List Bytes) : BitVec 128 :=
  blocks.foldl (fun y x => mul (y ^^^ bits x) h) 0

/-- Zero padding to a multiple of 16 bytes. -/
def pad16 (x : Bytes) : Bytes := x ++ zeros ((16 - x.length % 16) % 16)

/-- §7.1 step 5: the blocks of `A || 0^v || C || 0^u || [len(A)]_64 || [len(C)]_64`. -/
def authBlocks (a c : Bytes) : List Bytes :=
  chunks 16 (pad16 a ++ pad16 c ++ (toBE 8 (8 * a.length) ++ toBE 8 (8 * c.length)))

/-- `inc_32`, §6.2. -/
def inc32 (x : Bytes) : Bytes := x.take 12 ++ toBE 4 (beNat (x.drop 12) + 1)

/-- `GCTR`, §6.5 algorithm 3, on the list of blocks of the input (the last may be partial). -/
def gctrBlocks (E : Bytes → Bytes) : Bytes → List Bytes → Bytes
  | _, [] => []
  | cb, x :: xs => xorBytes x (E cb) ++ gctrBlocks E (inc32 cb) xs

/-- `GCTR_K(ICB, X)`. -/
def gctr (E : Bytes → Bytes) (icb x : Bytes) : Bytes := gctrBlocks E icb (chunks 16 x)

/-- `J_0 = IV || 0^31 || 1`, §7.1 step 2. -/
def J0 (iv : Bytes) : Bytes := iv ++ [0, 0, 0, 1]

/-- The ciphertext, §7.1 step 3 (the same function decrypts, §7.2 step 5). -/
def crypt (E : Bytes → Bytes) (iv p : Bytes) : Bytes := gctr E (inc32 (J0 iv)) p

/-- The 128-bit tag, §7.1 steps 5 and 6 (§7.2 steps 6 and 7). -/
def tag (E : Bytes → Bytes) (iv a c : Bytes) : Bytes :=
  gctr E (J0 iv) (bytes (ghash (bits (E (zeros 16))) (authBlocks a c)))

end CryptoPure.Spec.Gcm
