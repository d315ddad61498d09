import Verif.Spec.Montgomery
import Mathlib.Tactic.LinearCombination
import Mathlib.Tactic.FieldSimp

/-! # x-only arithmetic on y² = x³ + A x² + x, over any field -/

namespace CryptoPure.Montgomery
open WeierstrassCurve

set_option linter.unusedSectionVars false

variable {K : Type*} [Field K] [DecidableEq K]

/-- `(X : Z)` is the x-coordinate of `Q` in projective form. -/
def Rep {A : K} (X Z : K) : (curve A).Point → Prop
  | .zero => X ≠ 0 ∧ Z = 0
  | .some x _ _ => Z ≠ 0 ∧ X = x * Z

theorem equation_iff {A x y : K} : (curve A).Equation x y ↔ y ^ 2 = x ^ 3 + A * x ^ 2 + x := by
  rw [Affine.equation_iff]
  simp [curve]

theorem negY_eq {A : K} (x y : K) : (curve A).negY x y = -y := by simp [Affine.negY, curve]

theorem addX_eq {A : K} (x₁ x₂ l : K) : (curve A).addX x₁ x₂ l = l ^ 2 - A - x₁ - x₂ := by simp [Affine.addX, curve]

theorem nonsingular_of {A x y : K} (h2 : (2 : K) ≠ 0) (hA : A ^ 2 ≠ 4) (h : y ^ 2 = x ^ 3 + A * x ^ 2 + x) :
    (curve A).Nonsingular x y := by
  refine (Affine.equation_iff_nonsingular_of_Δ_ne_zero ?_).mp (equation_iff.mpr h)
  have : (curve A).Δ = 2 ^ 4 * (A ^ 2 - 4) := by
    simp only [WeierstrassCurve.Δ, WeierstrassCurve.b₂, WeierstrassCurve.b₄, WeierstrassCurve.b₆, WeierstrassCurve.b₈, curve]
    ring
  rw [this]
  exact mul_ne_zero (pow_ne_zero _ h2) (sub_ne_zero.mpr hA)

theorem rep_x0 {A X Z : K} {Q : (curve A).Point} (h : Rep X Z Q) : X * Z⁻¹ = x0 Q := by
  match Q, h with
  | .zero, h => rw [h.2]; simp [x0]
  | .some x y _, h => rw [h.2, x0, mul_assoc, mul_inv_cancel₀ h.1, mul_one]

theorem x0_neg {A : K} (Q : (curve A).Point) : x0 (-Q) = x0 Q := by
  match Q with
  | .zero => rfl
  | .some x y h => rw [Affine.Point.neg_some]; rfl

/-- Doubling. -/
theorem rep_dbl {A X Z : K} (h2 : (2 : K) ≠ 0) (hA : A ^ 2 ≠ 4) {Q : (curve A).Point} (h : Rep X Z Q) :
    Rep ((X ^ 2 - Z ^ 2) ^ 2) (4 * X * Z * (X ^ 2 + A * X * Z + Z ^ 2)) (Q + Q) := by
  have h4 : (4 : K) ≠ 0 := by
    have : (4 : K) = 2 * 2 := by norm_num
    rw [this]; exact mul_ne_zero h2 h2
  match Q, h with
  | .zero, ⟨hX, hZ⟩ =>
    have : (Affine.Point.zero : (curve A).Point) + .zero = .zero := add_zero (0 : (curve A).Point)
    rw [this, hZ]
    exact ⟨by simpa using hX, by ring⟩
  | .some x y hn, ⟨hZ, hX⟩ =>
    have he := equation_iff.mp hn.1
    subst hX
    by_cases hy : y = 0
    · rw [Affine.Point.add_self_of_Y_eq (by rw [negY_eq, hy, neg_zero])]
      have hz : x * (x ^ 2 + A * x + 1) = 0 := by rw [hy] at he; linear_combination -he
      refine ⟨?_, by linear_combination 4 * Z ^ 4 * hz⟩
      have : ((x * Z) ^ 2 - Z ^ 2) ^ 2 = (x ^ 2 - 1) ^ 2 * Z ^ 4 := by ring
      rw [this]
      refine mul_ne_zero (pow_ne_zero _ ?_) (pow_ne_zero _ hZ)
      intro hx
      have hx1 : x ^ 2 = 1 := by linear_combination hx
      have hx0 : x ≠ 0 := by rintro rfl; norm_num at hx1
      have h3 : x ^ 2 + A * x + 1 = 0 := (mul_eq_zero.mp hz).resolve_left hx0
      refine hA ?_
      have h5 : A * x = -2 := by linear_combination h3 - hx1
      have : A ^ 2 * x ^ 2 = 4 := by linear_combination (A * x - 2) * h5
      rwa [hx1, mul_one] at this
    · have hyn : y ≠ (curve A).negY x y := by
        rw [negY_eq]
        intro h
        refine hy ?_
        have : 2 * y = 0 := by linear_combination h
        exact (mul_eq_zero.mp this).resolve_left h2
      rw [Affine.Point.add_self_of_Y_ne hyn]
      have hsl : (curve A).slope x x y y = (3 * x ^ 2 + 2 * A * x + 1) / (2 * y) := by
        rw [Affine.slope_of_Y_ne rfl hyn, negY_eq]
        simp only [curve]
        congr 1 <;> ring
      have hc : x * (x ^ 2 + A * x + 1) = y ^ 2 := by linear_combination -he
      refine ⟨?_, ?_⟩
      · have : 4 * (x * Z) * Z * ((x * Z) ^ 2 + A * (x * Z) * Z + Z ^ 2) = 4 * y ^ 2 * Z ^ 4 := by
          rw [← hc]; ring
        rw [this]
        exact mul_ne_zero (mul_ne_zero h4 (pow_ne_zero _ hy)) (pow_ne_zero _ hZ)
      · rw [addX_eq, hsl]
        have hs : ((3 * x ^ 2 + 2 * A * x + 1) / (2 * y)) ^ 2 * (4 * y ^ 2) = (3 * x ^ 2 + 2 * A * x + 1) ^ 2 := by
          field_simp
          ring
        have : 4 * (x * Z) * Z * ((x * Z) ^ 2 + A * (x * Z) * Z + Z ^ 2) = 4 * y ^ 2 * Z ^ 4 := by
          rw [← hc]; ring
        rw [this]
        linear_combination (-Z ^ 4) * hs + 4 * (A + 2 * x) * Z ^ 4 * he

/-- Differential addition: `Q + R` from `Q`, `R` and `R - Q = ±(u, ..)`, `u ≠ 0`. -/
theorem rep_add {A X2 Z2 X3 Z3 u v : K} (h2 : (2 : K) ≠ 0) (hA : A ^ 2 ≠ 4) (hu : u ≠ 0) {Q R : (curve A).Point}
    {hP : (curve A).Nonsingular u v} (hd : R - Q = .some u v hP) (hQ : Rep X2 Z2 Q) (hR : Rep X3 Z3 R) :
    Rep (4 * (X2 * X3 - Z2 * Z3) ^ 2) (4 * u * (X2 * Z3 - X3 * Z2) ^ 2) (Q + R) := by
  have h4 : (4 : K) ≠ 0 := by
    have : (4 : K) = 2 * 2 := by norm_num
    rw [this]; exact mul_ne_zero h2 h2
  match Q, R, hQ, hR with
  | .zero, R, ⟨hX2, hZ2⟩, hR =>
    have hR' : R = .some u v hP := by rw [← hd]; exact (sub_zero R).symm
    have : (Affine.Point.zero : (curve A).Point) + R = R := zero_add R
    rw [this, hZ2]
    subst hR'
    obtain ⟨hZ3, hX3⟩ := hR
    refine ⟨?_, ?_⟩
    · rw [show 4 * u * (X2 * Z3 - X3 * 0) ^ 2 = 4 * u * (X2 * Z3) ^ 2 by ring]
      exact mul_ne_zero (mul_ne_zero h4 hu) (pow_ne_zero _ (mul_ne_zero hX2 hZ3))
    · rw [hX3]; ring
  | .some x2 y2 hn2, .zero, ⟨hZ2, hX2⟩, ⟨hX3, hZ3⟩ =>
    have hQ' : -(Affine.Point.some x2 y2 hn2) = .some u v hP := by rw [← hd]; exact (zero_sub _).symm
    have hx : x2 = u := by
      have := congrArg x0 hQ'
      rw [x0_neg] at this
      exact this
    have : (Affine.Point.some x2 y2 hn2) + (Affine.Point.zero : (curve A).Point) = .some x2 y2 hn2 := add_zero _
    rw [this, hZ3]
    subst hx
    refine ⟨?_, ?_⟩
    · rw [show 4 * x2 * (X2 * 0 - X3 * Z2) ^ 2 = 4 * x2 * (X3 * Z2) ^ 2 by ring]
      exact mul_ne_zero (mul_ne_zero h4 hu) (pow_ne_zero _ (mul_ne_zero hX3 hZ2))
    · rw [hX2]; ring
  | .some x2 y2 hn2, .some x3 y3 hn3, ⟨hZ2, hX2⟩, ⟨hZ3, hX3⟩ =>
    have he2 := equation_iff.mp hn2.1
    have he3 := equation_iff.mp hn3.1
    subst hX2 hX3
    by_cases hx : x2 = x3
    · subst hx
      have hyy : y2 = y3 ∨ y2 = -y3 := by
        rw [← sq_eq_sq_iff_eq_or_eq_neg, he2, he3]
      rcases hyy with hy | hy
      · exfalso
        subst hy
        rw [sub_self] at hd
        exact Affine.Point.some_ne_zero hP hd.symm
      · have hneg : -(Affine.Point.some x2 y2 hn2) = .some x2 y3 hn3 := by
          rw [Affine.Point.neg_some]
          congr 1
          rw [negY_eq, hy, neg_neg]
        have hsum : (Affine.Point.some x2 y2 hn2) + .some x2 y3 hn3 = .zero := by
          rw [← hneg]; exact add_neg_cancel _
        rw [hsum]
        refine ⟨?_, by ring⟩
        rw [show x2 * Z2 * (x2 * Z3) - Z2 * Z3 = (x2 ^ 2 - 1) * (Z2 * Z3) by ring]
        refine mul_ne_zero h4 (pow_ne_zero _ (mul_ne_zero ?_ (mul_ne_zero hZ2 hZ3)))
        intro h1
        have hdd : (Affine.Point.some x2 y3 hn3) + .some x2 y3 hn3 = .some u v hP := by
          rw [← hd, sub_eq_add_neg, hneg]
        have hr := rep_dbl h2 hA (X := x2) (Z := 1) (Q := .some x2 y3 hn3) ⟨one_ne_zero, (mul_one _).symm⟩
        rw [hdd] at hr
        obtain ⟨r1, r2⟩ := hr
        rw [show (x2 ^ 2 - 1 ^ 2) ^ 2 = 0 by rw [one_pow, h1]; ring] at r2
        exact (mul_ne_zero hu r1) r2.symm
    · rw [Affine.Point.add_of_X_ne hx]
      have hne : x2 - x3 ≠ 0 := sub_ne_zero.mpr hx
      have hne' : x3 - x2 ≠ 0 := sub_ne_zero.mpr (Ne.symm hx)
      have hu' : u = ((y3 + y2) / (x3 - x2)) ^ 2 - A - x3 - x2 := by
        rw [sub_eq_add_neg, Affine.Point.neg_some, Affine.Point.add_of_X_ne (Ne.symm hx)] at hd
        have := congrArg x0 hd
        simp only [x0] at this
        rw [← this, addX_eq, Affine.slope_of_X_ne (Ne.symm hx), negY_eq, sub_neg_eq_add]
      refine ⟨?_, ?_⟩
      · rw [show x2 * Z2 * Z3 - x3 * Z3 * Z2 = (x2 - x3) * (Z2 * Z3) by ring]
        exact mul_ne_zero (mul_ne_zero h4 hu) (pow_ne_zero _ (mul_ne_zero hne (mul_ne_zero hZ2 hZ3)))
      · rw [addX_eq, Affine.slope_of_X_ne hx]
        have hud : u * (x2 - x3) ^ 2 = (y3 + y2) ^ 2 - (A + x3 + x2) * (x2 - x3) ^ 2 := by
          rw [hu']; field_simp; ring
        have hwd : (((y2 - y3) / (x2 - x3)) ^ 2 - A - x2 - x3) * (x2 - x3) ^ 2 =
            (y2 - y3) ^ 2 - (A + x2 + x3) * (x2 - x3) ^ 2 := by
          field_simp; ring
        generalize ((y2 - y3) / (x2 - x3)) ^ 2 - A - x2 - x3 = w at *
        have key : w * u * (x2 - x3) ^ 2 = (x2 * x3 - 1) ^ 2 := by
          have hk : w * u * (x2 - x3) ^ 2 * (x2 - x3) ^ 2 = (x2 * x3 - 1) ^ 2 * (x2 - x3) ^ 2 := by
            have : w * u * (x2 - x3) ^ 2 * (x2 - x3) ^ 2 = (w * (x2 - x3) ^ 2) * (u * (x2 - x3) ^ 2) := by ring
            rw [this, hwd, hud]
            have e : ((y2 - y3) ^ 2 - (A + x2 + x3) * (x2 - x3) ^ 2) * ((y3 + y2) ^ 2 - (A + x3 + x2) * (x2 - x3) ^ 2) =
              (y2 ^ 2 - y3 ^ 2) ^ 2 - 2 * (A + x2 + x3) * (x2 - x3) ^ 2 * (y2 ^ 2 + y3 ^ 2) +
                (A + x2 + x3) ^ 2 * (x2 - x3) ^ 4 := by ring
            rw [e, he2, he3]
            ring
          exact mul_right_cancel₀ (pow_ne_zero 2 hne) hk
        rw [show x2 * Z2 * (x3 * Z3) - Z2 * Z3 = (x2 * x3 - 1) * (Z2 * Z3) by ring, mul_pow, ← key]
        ring

end CryptoPure.Montgomery
