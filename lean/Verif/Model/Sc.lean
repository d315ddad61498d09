import Verif.Model.Fe
import Verif.Model.ScProgs

/-! Model of the scalar functions of /repo/src/ed25519.rs: `sc_reduce` and `sc_muladd`. -/

namespace CryptoPure.Model.Sc
open SL Fe

/-- `2097151 & x as i64`, a 21-bit limb, as in src/ed25519.rs:340-375. -/
def lim (x : U64) : Int := (2097151 &&& x).toInt

/-- The loads of `a0 .. a11`, src/ed25519.rs:340-375 (the same for `b` and `c`). -/
def load12 (a : Bytes) : List Int :=
  [lim (load3 a), lim (load4 (a.drop 2) >>> 5), lim (load3 (a.drop 5) >>> 2), lim (load4 (a.drop 7) >>> 7),
   lim (load4 (a.drop 10) >>> 4), lim (load3 (a.drop 13) >>> 1), lim (load4 (a.drop 15) >>> 6),
   lim (load3 (a.drop 18) >>> 3), lim (load3 (a.drop 21)), lim (load4 (a.drop 23) >>> 5), lim (load3 (a.drop 26) >>> 2),
   (load4 (a.drop 28) >>> 7).toInt]

/-- The loads of `s0 .. s23`, src/ed25519.rs:873-896. -/
def load24 (s : Bytes) : List Int :=
  [lim (load3 s), lim (load4 (s.drop 2) >>> 5), lim (load3 (s.drop 5) >>> 2), lim (load4 (s.drop 7) >>> 7),
   lim (load4 (s.drop 10) >>> 4), lim (load3 (s.drop 13) >>> 1), lim (load4 (s.drop 15) >>> 6),
   lim (load3 (s.drop 18) >>> 3), lim (load3 (s.drop 21)), lim (load4 (s.drop 23) >>> 5), lim (load3 (s.drop 26) >>> 2),
   lim (load4 (s.drop 28) >>> 7), lim (load4 (s.drop 31) >>> 4), lim (load3 (s.drop 34) >>> 1),
   lim (load4 (s.drop 36) >>> 6), lim (load3 (s.drop 39) >>> 3), lim (load3 (s.drop 42)), lim (load4 (s.drop 44) >>> 5),
   lim (load3 (s.drop 47) >>> 2), lim (load4 (s.drop 49) >>> 7), lim (load4 (s.drop 52) >>> 4),
   lim (load3 (s.drop 55) >>> 1), lim (load4 (s.drop 57) >>> 6), (load4 (s.drop 60) >>> 3).toInt]

/-- The stores of `s[0] .. s[31]`, src/ed25519.rs:838-869 and 1171-1202: `i64` shifts, `|`, `as u8`. -/
def store (h : Nat → BitVec 64) : Bytes :=
  let r := fun (i k : Nat) => (h i).sshiftRight k
  let j := fun (i k i' k' : Nat) => (h i).sshiftRight k ||| (h i' <<< k')
  [r 0 0, r 0 8, j 0 16 1 5, r 1 3, r 1 11, j 1 19 2 2, r 2 6, j 2 14 3 7, r 3 1, r 3 9, j 3 17 4 4, r 4 4, r 4 12,
   j 4 20 5 1, r 5 7, j 5 15 6 6, r 6 2, r 6 10, j 6 18 7 3, r 7 5, r 7 13, r 8 0, r 8 8, j 8 16 9 5, r 9 3, r 9 11,
   j 9 19 10 2, r 10 6, j 10 14 11 7, r 11 1, r 11 9, r 11 17].map (·.setWidth 8)

/-- `sc_reduce`, src/ed25519.rs:872-1203: the new contents of the 64-byte array `s`; only the first 32 bytes change. -/
def reduce (m : Mode) (s : Bytes) : Option Bytes := do
  let env ← run m ScReduce.prog (load24 s ++ List.replicate (ScReduce.size - 24) 0)
  some (store (fun i => BitVec.ofInt 64 (env.getD (ScReduce.s0 + i) 0)) ++ s.drop 32)

/-- `sc_muladd`, src/ed25519.rs:338-870: the new contents of the 32-byte slice `s`. -/
def muladd (m : Mode) (a b c : Bytes) : Option Bytes := do
  let env ← run m ScMuladd.prog (load12 a ++ load12 b ++ load12 c ++ List.replicate (ScMuladd.size - 36) 0)
  some (store fun i => BitVec.ofInt 64 (env.getD (ScMuladd.s0 + i) 0))

end CryptoPure.Model.Sc
