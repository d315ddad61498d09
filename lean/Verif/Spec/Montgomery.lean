import Mathlib.AlgebraicGeometry.EllipticCurve.Affine.Point

/-! # The Montgomery curve y² = x³ + A x² + x as an elliptic curve

`(curve A).Point` is Mathlib's type of points of the curve (with the point at infinity), a commutative group under
Mathlib's `+`; `k • P` is the `k`-fold sum. -/

namespace CryptoPure.Montgomery
open WeierstrassCurve

/-- The curve `y² = x³ + A x² + x`. -/
def curve {K : Type*} [Field K] (A : K) : Affine K := { a₁ := 0, a₂ := A, a₃ := 0, a₄ := 1, a₆ := 0 }

/-- x-coordinate, 0 for the point at infinity. -/
def x0 {K : Type*} [Field K] {A : K} : (curve A).Point → K
  | .zero => 0
  | .some x _ _ => x

end CryptoPure.Montgomery
