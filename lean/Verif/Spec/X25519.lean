import Verif.Spec.Field25519
import Verif.Basic

/-! # RFC 7748 §5: the X25519 function, in exact arithmetic modulo 2^255 - 19 -/

namespace CryptoPure.Spec.X25519

/-- `decodeScalar25519`: clear the three low bits and the top bit, set bit 254. -/
def decodeScalar (k : Bytes) : Nat := leNat k % 2 ^ 254 / 8 * 8 + 2 ^ 254

/-- `decodeUCoordinate`: ignore bit 255, reduce modulo `p`. -/
def decodeU (u : Bytes) : F := ((leNat u % 2 ^ 255 : Nat) : F)

/-- `encodeUCoordinate`: the canonical representative, little-endian. -/
def encodeU (u : F) : Bytes := toLE 32 u.val

/-- The variables of the Montgomery ladder. -/
structure St where
  x2 : F
  z2 : F
  x3 : F
  z3 : F
  swap : Bool

/-- `cswap`. -/
def cswap (b : Bool) (x y : F) : F × F := if b then (y, x) else (x, y)

/-- One iteration of the ladder, `kt` the scalar bit. -/
def step (x1 : F) (kt : Bool) (s : St) : St :=
  let swap := s.swap ^^ kt
  let (x2, x3) := cswap swap s.x2 s.x3
  let (z2, z3) := cswap swap s.z2 s.z3
  let A := x2 + z2
  let AA := A ^ 2
  let B := x2 - z2
  let BB := B ^ 2
  let E := AA - BB
  let C := x3 + z3
  let D := x3 - z3
  let DA := D * A
  let CB := C * B
  { x3 := (DA + CB) ^ 2, z3 := x1 * (DA - CB) ^ 2, x2 := AA * BB, z2 := E * (AA + 121665 * E), swap := kt }

/-- The ladder over the 255 low bits of `k`, from the top: `x_2 * (z_2 ^ (p - 2))`. -/
def ladder (k : Nat) (u : F) : F :=
  let s := (List.range 255).reverse.foldl (fun s t => step u (k.testBit t) s)
    { x2 := 1, z2 := 0, x3 := u, z3 := 1, swap := false }
  let (x2, _) := cswap s.swap s.x2 s.x3
  let (z2, _) := cswap s.swap s.z2 s.z3
  x2 * z2 ^ (p25519 - 2)

/-- X25519(k, u) on byte strings. -/
def x25519 (k u : Bytes) : Bytes := encodeU (ladder (decodeScalar k) (decodeU u))

end CryptoPure.Spec.X25519
