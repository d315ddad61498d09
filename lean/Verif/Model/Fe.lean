import Verif.Model.FeProgs

/-! Model of the field-element type `Fe` (/repo/src/curve25519.rs:54-596, 598-1033 and the `impl Fe` of
/repo/src/ed25519.rs:99-336). An `Fe` is the list of its ten `i32` limbs as integers. Functions that assign to
`self` return the new value. -/

namespace CryptoPure.Model
open SL

/-- `Fe`, src/curve25519.rs:54-55. -/
abbrev Fe := List Int

namespace Fe

/-- `Fe::default()` and `assign_zero`, src/curve25519.rs:54, 605-609. -/
def zero : Fe := [0, 0, 0, 0, 0, 0, 0, 0, 0, 0]

/-- `assign_one`, src/curve25519.rs:611-617. -/
def one : Fe := [1, 0, 0, 0, 0, 0, 0, 0, 0, 0]

/-- `assign_sum` and `+=`, src/curve25519.rs:619-623, 991-1005. -/
def add (m : Mode) (f g : Fe) : Option Fe := (f.zip g).mapM fun p => ck m .i32 (p.1 + p.2)

/-- `assign_difference`, `subtract_from` (with swapped arguments) and `-=`, src/curve25519.rs:886-896, 1019-1033. -/
def sub (m : Mode) (f g : Fe) : Option Fe := (f.zip g).mapM fun p => ck m .i32 (p.1 - p.2)

/-- `assign_neg`, `neg`, src/ed25519.rs:168-178. -/
def neg (m : Mode) (f : Fe) : Option Fe := f.mapM fun x => ck m .i32 (-x)

/-- `(f ^ ((f ^ g) & -b))` on one `i32` limb: the masked selection in `cswap_with` and `cmov_from`,
src/curve25519.rs:625-689, src/ed25519.rs:100-154. -/
def selLimb (b : U32) (x y : Int) : Int :=
  (BitVec.ofInt 32 x ^^^ ((BitVec.ofInt 32 x ^^^ BitVec.ofInt 32 y) &&& (-b))).toInt

/-- `cswap_with`, src/curve25519.rs:625-689: the new values of `self` and `g`. -/
def cswap (f g : Fe) (b : U32) : Fe × Fe :=
  (List.zipWith (fun x y => selLimb b x y) f g,
   List.zipWith (fun x y => (BitVec.ofInt 32 y ^^^ ((BitVec.ofInt 32 x ^^^ BitVec.ofInt 32 y) &&& (-b))).toInt) f g)

/-- `cmov_from`, src/ed25519.rs:100-154. -/
def cmov (f g : Fe) (b : U32) : Fe := List.zipWith (fun x y => selLimb b x y) f g

/-- The limbs in slots `o .. o+9`: the stores at the end of `fe_mul!`, `fe_sq!` and others, src/curve25519.rs:351-360, 508-517. -/
def limbs (env : Env) (o : Nat) : Fe := (env.drop o).take 10

/-- `assign_product` and `*=` (`fe_mul!`), src/curve25519.rs:120-362, 758-760, 1007-1017. -/
def mul (m : Mode) (f g : Fe) : Option Fe := do
  let env ← run m FeMul.prog (f ++ g ++ List.replicate (FeMul.size - 20) 0)
  some (limbs env FeMul.h0)

/-- `assign_square` and `square` (`fe_sq!`), src/curve25519.rs:364-519, 878-884. -/
def sq (m : Mode) (f : Fe) : Option Fe := do
  let env ← run m FeSq.prog (f ++ List.replicate (FeSq.size - 10) 0)
  some (limbs env FeSq.h0)

/-- `assign_twice_square`, src/ed25519.rs:180-336. -/
def sq2 (m : Mode) (f : Fe) : Option Fe := do
  let env ← run m FeSq2.prog (f ++ List.replicate (FeSq2.size - 10) 0)
  some (limbs env FeSq2.h0)

/-- `mul121666`, src/curve25519.rs:762-828. -/
def mul121666 (m : Mode) (f : Fe) : Option Fe := do
  let env ← run m FeMul121666.prog (f ++ List.replicate (FeMul121666.size - 10) 0)
  some (limbs env FeMul121666.h0)

/-- `load_3`, src/curve25519.rs:39-44 (`x` has at least 3 bytes). -/
def load3 (x : Bytes) : U64 :=
  (x.getD 0 0).setWidth 64 ||| ((x.getD 1 0).setWidth 64 <<< 8) ||| ((x.getD 2 0).setWidth 64 <<< 16)

/-- `load_4`, src/curve25519.rs:46-52 (`x` has at least 4 bytes). -/
def load4 (x : Bytes) : U64 :=
  (x.getD 0 0).setWidth 64 ||| ((x.getD 1 0).setWidth 64 <<< 8) ||| ((x.getD 2 0).setWidth 64 <<< 16) |||
    ((x.getD 3 0).setWidth 64 <<< 24)

/-- `assign_from_bytes`, src/curve25519.rs:691-746. Indexing needs 32 bytes; further bytes are ignored. -/
def fromBytes (m : Mode) (s : Bytes) : Option Fe := do
  assert (32 ≤ s.length)
  let h : List U64 :=
    [load4 s, load3 (s.drop 4) <<< 6, load3 (s.drop 7) <<< 5, load3 (s.drop 10) <<< 3, load3 (s.drop 13) <<< 2,
     load4 (s.drop 16), load3 (s.drop 20) <<< 7, load3 (s.drop 23) <<< 5, load3 (s.drop 26) <<< 4,
     (load3 (s.drop 29) &&& 8388607) <<< 2]
  let env ← run m FeFromBytes.prog (h.map BitVec.toInt ++ List.replicate (FeFromBytes.size - 10) 0)
  some (limbs env FeFromBytes.h0)

/-- The stores of `write_bytes`, src/curve25519.rs:955-986: `i32` shifts, `|`, `as u8`. -/
def storeBytes (h : Nat → BitVec 32) : Bytes :=
  let r := fun (i k : Nat) => (h i).sshiftRight k
  let j := fun (i k i' k' : Nat) => (h i).sshiftRight k ||| (h i' <<< k')
  [r 0 0, r 0 8, r 0 16, j 0 24 1 2, r 1 6, r 1 14, j 1 22 2 3, r 2 5, r 2 13, j 2 21 3 5, r 3 3, r 3 11, j 3 19 4 6,
   r 4 2, r 4 10, r 4 18, r 5 0, r 5 8, r 5 16, j 5 24 6 1, r 6 7, r 6 15, j 6 23 7 3, r 7 5, r 7 13, j 7 21 8 4,
   r 8 4, r 8 12, j 8 20 9 6, r 9 2, r 9 10, r 9 18].map (·.setWidth 8)

/-- `write_bytes`, src/curve25519.rs:898-988, into a 32-byte buffer. -/
def toBytes (m : Mode) (f : Fe) : Option Bytes := do
  let env ← run m FeWriteBytes.prog (f ++ List.replicate (FeWriteBytes.size - 10) 0)
  some (storeBytes fun i => BitVec.ofInt 32 (env.getD i 0))

/-- `square_many!`, src/curve25519.rs:57-63: `for _ in 1..i`. -/
def squareMany (m : Mode) (f : Fe) (i : Nat) : Option Fe :=
  (List.range' 1 (i - 1)).foldlM (fun f _ => sq m f) f

/-- `fe_invert!`, src/curve25519.rs:65-118, 748-756. -/
def invert (m : Mode) (z : Fe) : Option Fe := do
  let t0 ← sq m z
  let t1 ← sq m t0
  let t1 ← sq m t1
  let t1 ← mul m t1 z
  let t0 ← mul m t0 t1
  let t2 ← sq m t0
  let t1 ← mul m t1 t2
  let t2 ← sq m t1
  let t2 ← squareMany m t2 5
  let t1 ← mul m t1 t2
  let t2 ← sq m t1
  let t2 ← squareMany m t2 10
  let t2 ← mul m t2 t1
  let t3 ← sq m t2
  let t3 ← squareMany m t3 20
  let t2 ← mul m t2 t3
  let t2 ← squareMany m t2 11
  let t1 ← mul m t1 t2
  let t2 ← sq m t1
  let t2 ← squareMany m t2 50
  let t2 ← mul m t2 t1
  let t3 ← sq m t2
  let t3 ← squareMany m t3 100
  let t2 ← mul m t2 t3
  let t2 ← squareMany m t2 51
  let t1 ← mul m t1 t2
  let t1 ← squareMany m t1 6
  mul m t1 t0

/-- `pow22523`, src/curve25519.rs:830-876. -/
def pow22523 (m : Mode) (z : Fe) : Option Fe := do
  let t0 ← sq m z
  let t1 ← sq m t0
  let t1 ← sq m t1
  let t1 ← mul m t1 z
  let t0 ← mul m t0 t1
  let t0 ← sq m t0
  let t0 ← mul m t0 t1
  let t1 ← sq m t0
  let t1 ← squareMany m t1 5
  let t0 ← mul m t0 t1
  let t1 ← sq m t0
  let t1 ← squareMany m t1 10
  let t1 ← mul m t1 t0
  let t2 ← sq m t1
  let t2 ← squareMany m t2 20
  let t1 ← mul m t1 t2
  let t1 ← squareMany m t1 11
  let t0 ← mul m t0 t1
  let t1 ← sq m t0
  let t1 ← squareMany m t1 50
  let t1 ← mul m t1 t0
  let t2 ← sq m t1
  let t2 ← squareMany m t2 100
  let t1 ← mul m t1 t2
  let t1 ← squareMany m t1 51
  let t0 ← mul m t0 t1
  let t0 ← sq m t0
  let t0 ← sq m t0
  mul m z t0

/-- `verify_32`, src/curve25519.rs:31-37. `i32` as `BitVec 32`; no operation can overflow, as the accumulator is
between 0 and 255. `zip` stops at the shorter argument. -/
def verify32 (x y : Bytes) : BitVec 32 :=
  let d := (x.zip y).foldl (fun acc p => acc ||| (p.1 ^^^ p.2).setWidth 32) (0 : BitVec 32)
  (1 &&& (d - 1).sshiftRight 8) - 1

/-- `is_negative`, src/ed25519.rs:156-160. -/
def isNegative (m : Mode) (f : Fe) : Option (BitVec 32) := do
  let s ← toBytes m f
  some ((s.getD 0 0 &&& 1).setWidth 32)

/-- `is_nonzero`, src/ed25519.rs:162-166. -/
def isNonzero (m : Mode) (f : Fe) : Option (BitVec 32) := do
  let s ← toBytes m f
  some (verify32 s (zeros 32))

end Fe
end CryptoPure.Model
