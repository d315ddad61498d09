import Mathlib.Tactic.LinearCombination
import Mathlib.Tactic.FieldSimp
import Mathlib.Tactic.Ring
import Mathlib.Algebra.Field.Basic
import Mathlib.Algebra.Group.Even

/-! # Algebra of the twisted Edwards curve -x² + y² = 1 + d x² y² and its Montgomery form, over any field

`g` is `c²` where `(u, v) = ((1 + y) / (1 - y), c u / x)` maps to the Montgomery curve with `A = -g - 2`;
`d = -(g + 4) / g`. -/

namespace CryptoPure.Edwards
variable {K : Type*} [Field K]

/-- The curve equation. -/
def On (d x y : K) : Prop := -x ^ 2 + y ^ 2 = 1 + d * x ^ 2 * y ^ 2

/-- The denominators of the addition law never vanish. -/
theorem complete {d i x₁ y₁ x₂ y₂ : K} (h2 : (2 : K) ≠ 0) (hi : i ^ 2 = -1) (hd : ¬ IsSquare d) (h₁ : On d x₁ y₁)
    (h₂ : On d x₂ y₂) : (d * x₁ * x₂ * y₁ * y₂) ^ 2 ≠ 1 := by
  unfold On at h₁ h₂
  intro he
  have hz : x₁ ≠ 0 ∧ y₁ ≠ 0 ∧ x₂ ≠ 0 ∧ y₂ ≠ 0 := by
    refine ⟨?_, ?_, ?_, ?_⟩ <;> rintro rfl <;> simp at he
  obtain ⟨hx₁, hy₁, hx₂, hy₂⟩ := hz
  have hxy : x₁ * y₁ ≠ 0 := mul_ne_zero hx₁ hy₁
  generalize hE : d * x₁ * x₂ * y₁ * y₂ = e at he
  have k1 : (i * x₁ + e * y₁) ^ 2 = d * (x₁ * y₁) ^ 2 * (i * x₂ + y₂) ^ 2 := by
    rw [← hE] at he ⊢
    linear_combination (x₁ ^ 2 - d * x₁ ^ 2 * y₁ ^ 2 * x₂ ^ 2) * hi + y₁ ^ 2 * he + h₁ - d * x₁ ^ 2 * y₁ ^ 2 * h₂ - he
  have k2 : (i * x₁ - e * y₁) ^ 2 = d * (x₁ * y₁) ^ 2 * (i * x₂ - y₂) ^ 2 := by
    rw [← hE] at he ⊢
    linear_combination (x₁ ^ 2 - d * x₁ ^ 2 * y₁ ^ 2 * x₂ ^ 2) * hi + y₁ ^ 2 * he + h₁ - d * x₁ ^ 2 * y₁ ^ 2 * h₂ - he
  have sq : ∀ a b : K, b ≠ 0 → a ^ 2 = d * (x₁ * y₁) ^ 2 * b ^ 2 → False := by
    intro a b hb h
    refine hd ⟨a / (x₁ * y₁ * b), ?_⟩
    field_simp
    linear_combination -h
  by_cases hp : i * x₂ + y₂ = 0
  · refine sq _ _ ?_ k2
    intro hm
    have hi0 : i ≠ 0 := by rintro rfl; norm_num at hi
    have : 2 * (i * x₂) = 0 := by linear_combination hp + hm
    exact (mul_ne_zero h2 (mul_ne_zero hi0 hx₂)) this
  · exact sq _ _ hp k1

theorem den_add {d i x₁ y₁ x₂ y₂ : K} (h2 : (2 : K) ≠ 0) (hi : i ^ 2 = -1) (hd : ¬ IsSquare d) (h₁ : On d x₁ y₁)
    (h₂ : On d x₂ y₂) : 1 + d * x₁ * x₂ * y₁ * y₂ ≠ 0 ∧ 1 - d * x₁ * x₂ * y₁ * y₂ ≠ 0 := by
  have := complete h2 hi hd h₁ h₂
  constructor
  · intro h
    exact this (by linear_combination (d * x₁ * x₂ * y₁ * y₂ - 1) * h)
  · intro h
    exact this (by linear_combination (-(d * x₁ * x₂ * y₁ * y₂) - 1) * h)

/-- `d y² = -1` has no solution. -/
theorem den_y {d i : K} (hi : i ^ 2 = -1) (hd : ¬ IsSquare d) (y : K) : 1 + d * y ^ 2 ≠ 0 := by
  intro h
  have hy : y ≠ 0 := by rintro rfl; norm_num at h
  refine hd ⟨i / y, ?_⟩
  field_simp
  linear_combination h - hi

theorem on_div {d X Y P M : K} (hp : P ≠ 0) (hm : M ≠ 0)
    (h : -X ^ 2 * M ^ 2 + Y ^ 2 * P ^ 2 = P ^ 2 * M ^ 2 + d * X ^ 2 * Y ^ 2) : On d (X / P) (Y / M) := by
  unfold On
  field_simp
  linear_combination h

/-- The sum is on the curve. -/
theorem on_add {d x₁ y₁ x₂ y₂ : K} (h₁ : On d x₁ y₁) (h₂ : On d x₂ y₂) (hp : 1 + d * x₁ * x₂ * y₁ * y₂ ≠ 0)
    (hm : 1 - d * x₁ * x₂ * y₁ * y₂ ≠ 0) :
    On d ((x₁ * y₂ + x₂ * y₁) / (1 + d * x₁ * x₂ * y₁ * y₂)) ((y₁ * y₂ + x₁ * x₂) / (1 - d * x₁ * x₂ * y₁ * y₂)) := by
  refine on_div hp hm ?_
  unfold On at *
  linear_combination (d ^ 3 * x₁ ^ 2 * y₁ ^ 2 * x₂ ^ 4 * y₂ ^ 4 - d ^ 2 * x₁ ^ 2 * x₂ ^ 4 * y₂ ^ 4 +
    d ^ 2 * y₁ ^ 2 * x₂ ^ 4 * y₂ ^ 4 - d ^ 2 * x₂ ^ 4 * y₂ ^ 4 - d * x₁ ^ 2 * x₂ ^ 4 * y₂ ^ 2 +
    d * x₁ ^ 2 * x₂ ^ 2 * y₂ ^ 4 + d * y₁ ^ 2 * x₂ ^ 4 * y₂ ^ 2 - d * y₁ ^ 2 * x₂ ^ 2 * y₂ ^ 4 -
    2 * d * x₂ ^ 4 * y₂ ^ 4 - 2 * d * x₂ ^ 2 * y₂ ^ 2 - 2 * x₂ ^ 4 * y₂ ^ 2 + x₂ ^ 4 + 2 * x₂ ^ 2 * y₂ ^ 4 -
    4 * x₂ ^ 2 * y₂ ^ 2 + y₂ ^ 4) * h₁ + (d * x₁ ^ 4 * x₂ ^ 2 * y₂ ^ 2 + 2 * d * x₁ ^ 2 * x₂ ^ 2 * y₂ ^ 2 +
    d * y₁ ^ 4 * x₂ ^ 2 * y₂ ^ 2 - 2 * d * y₁ ^ 2 * x₂ ^ 2 * y₂ ^ 2 + d * x₂ ^ 2 * y₂ ^ 2 +
    2 * x₁ ^ 2 * x₂ ^ 2 * y₂ ^ 2 - x₁ ^ 2 * x₂ ^ 2 + x₁ ^ 2 * y₂ ^ 2 - 2 * y₁ ^ 2 * x₂ ^ 2 * y₂ ^ 2 +
    y₁ ^ 2 * x₂ ^ 2 - y₁ ^ 2 * y₂ ^ 2 + 2 * x₂ ^ 2 * y₂ ^ 2 - x₂ ^ 2 + y₂ ^ 2 + 1) * h₂

/-! ## To the Montgomery curve -/

/-- The coefficient `d` in terms of `g`. -/
theorem on_iff {g x y : K} (hg : g ≠ 0) :
    On (-(g + 4) / g) x y ↔ ((g + 4) * y ^ 2 - g) * x ^ 2 = g * (1 - y ^ 2) := by
  unfold On
  constructor
  · intro h
    field_simp at h
    linear_combination h
  · intro h
    field_simp
    linear_combination h

theorem y_ne_one {g x y : K} (hg : g ≠ 0) (h2 : (2 : K) ≠ 0) (h : On (-(g + 4) / g) x y) (hx : x ≠ 0) :
    1 - y ≠ 0 ∧ 1 + y ≠ 0 := by
  rw [on_iff hg] at h
  have h4 : (4 : K) * x ^ 2 ≠ 0 := by
    rw [show (4 : K) = 2 * 2 by norm_num]
    exact mul_ne_zero (mul_ne_zero h2 h2) (pow_ne_zero _ hx)
  constructor
  · intro hy
    refine h4 ?_
    have : y = 1 := by linear_combination -hy
    subst this
    linear_combination h
  · intro hy
    refine h4 ?_
    have : y = -1 := by linear_combination hy
    subst this
    linear_combination h

/-- The image is on the Montgomery curve. -/
theorem mont_eq {c x y : K} (hg : c ≠ 0) (hx : x ≠ 0) (hy : 1 - y ≠ 0) (h : On (-(c ^ 2 + 4) / c ^ 2) x y) :
    (c * ((1 + y) / (1 - y)) / x) ^ 2 =
      ((1 + y) / (1 - y)) ^ 3 + (-c ^ 2 - 2) * ((1 + y) / (1 - y)) ^ 2 + (1 + y) / (1 - y) := by
  rw [on_iff (pow_ne_zero _ hg)] at h
  field_simp
  linear_combination -(1 + y) * h

/-- `1 - y₃` does not vanish when `y₁ ≠ y₂`. -/
theorem d3_ne {g y₁ y₂ w : K} (hg : g ≠ 0) (h2 : (2 : K) ≠ 0) (hy : y₁ ≠ y₂)
    (hn : (g + 4) * (y₁ * y₂) ^ 2 - g ≠ 0)
    (hw : ((g + 4) * y₁ ^ 2 - g) * ((g + 4) * y₂ ^ 2 - g) * w ^ 2 = g ^ 2 * (1 - y₁ ^ 2) * (1 - y₂ ^ 2)) :
    g + (g + 4) * w * y₁ * y₂ - g * (y₁ * y₂ + w) ≠ 0 := by
  intro h
  have h4 : (4 : K) ≠ 0 := by
    rw [show (4 : K) = 2 * 2 by norm_num]
    exact mul_ne_zero h2 h2
  have hne : 4 * (y₁ - y₂) ^ 2 * ((g + 4) * (y₁ * y₂) ^ 2 - g) * g ^ 2 ≠ 0 :=
    mul_ne_zero (mul_ne_zero (mul_ne_zero h4 (pow_ne_zero _ (sub_ne_zero.mpr hy))) hn) (pow_ne_zero _ hg)
  refine hne ?_
  -- w ((g+4) y₁ y₂ - g) = - g (1 - y₁ y₂)
  have e : w * ((g + 4) * y₁ * y₂ - g) = -g * (1 - y₁ * y₂) := by linear_combination h
  have e2 : w ^ 2 * ((g + 4) * y₁ * y₂ - g) ^ 2 = g ^ 2 * (1 - y₁ * y₂) ^ 2 := by
    linear_combination (w * ((g + 4) * y₁ * y₂ - g) - g * (1 - y₁ * y₂)) * e
  linear_combination (-((g + 4) * y₁ ^ 2 - g) * ((g + 4) * y₂ ^ 2 - g)) * e2 + ((g + 4) * y₁ * y₂ - g) ^ 2 * hw

/-- The u-coordinate of a sum of points with different u-coordinates. -/
theorem add_u {c x₁ y₁ x₂ y₂ : K} (hc : c ≠ 0) (h2 : (2 : K) ≠ 0) (hy : y₁ ≠ y₂)
    (h₁ : On (-(c ^ 2 + 4) / c ^ 2) x₁ y₁) (h₂ : On (-(c ^ 2 + 4) / c ^ 2) x₂ y₂) (hx₁ : x₁ ≠ 0) (hx₂ : x₂ ≠ 0)
    (hD : c ^ 2 + (c ^ 2 + 4) * (x₁ * x₂) * y₁ * y₂ - c ^ 2 * (y₁ * y₂ + x₁ * x₂) ≠ 0) :
    ((c * ((1 + y₁) / (1 - y₁)) / x₁ - c * ((1 + y₂) / (1 - y₂)) / x₂) /
      ((1 + y₁) / (1 - y₁) - (1 + y₂) / (1 - y₂))) ^ 2 - (-c ^ 2 - 2) - (1 + y₁) / (1 - y₁) - (1 + y₂) / (1 - y₂) =
    (c ^ 2 + (c ^ 2 + 4) * (x₁ * x₂) * y₁ * y₂ + c ^ 2 * (y₁ * y₂ + x₁ * x₂)) /
      (c ^ 2 + (c ^ 2 + 4) * (x₁ * x₂) * y₁ * y₂ - c ^ 2 * (y₁ * y₂ + x₁ * x₂)) := by
  have hg : c ^ 2 ≠ 0 := pow_ne_zero _ hc
  obtain ⟨a₁, b₁⟩ := y_ne_one hg h2 h₁ hx₁
  obtain ⟨a₂, b₂⟩ := y_ne_one hg h2 h₂ hx₂
  rw [on_iff hg] at h₁ h₂
  have hyy : y₁ - y₂ ≠ 0 := sub_ne_zero.mpr hy
  -- the slope
  have hs : (c * ((1 + y₁) / (1 - y₁)) / x₁ - c * ((1 + y₂) / (1 - y₂)) / x₂) /
      ((1 + y₁) / (1 - y₁) - (1 + y₂) / (1 - y₂)) =
      c * ((1 + y₁) * (1 - y₂) * x₂ - (1 + y₂) * (1 - y₁) * x₁) / (2 * (x₁ * x₂) * (y₁ - y₂)) := by
    have : (1 + y₁) / (1 - y₁) - (1 + y₂) / (1 - y₂) = 2 * (y₁ - y₂) / ((1 - y₁) * (1 - y₂)) := by
      field_simp; ring
    rw [this]
    field_simp
  rw [hs]
  generalize hgg : c ^ 2 = g at *
  have hw : ((g + 4) * y₁ ^ 2 - g) * ((g + 4) * y₂ ^ 2 - g) * (x₁ * x₂) ^ 2 = g ^ 2 * (1 - y₁ ^ 2) * (1 - y₂ ^ 2) := by
    linear_combination ((g + 4) * y₂ ^ 2 - g) * x₂ ^ 2 * h₁ + g * (1 - y₁ ^ 2) * h₂
  have hl : (c * ((1 + y₁) * (1 - y₂) * x₂ - (1 + y₂) * (1 - y₁) * x₁) / (2 * (x₁ * x₂) * (y₁ - y₂))) ^ 2 *
      (4 * (y₂ - y₁) ^ 2 * (1 - y₁) * (1 - y₂) * g) =
      g * ((1 + y₂) * (1 - y₁) ^ 3 * ((g + 4) * y₂ ^ 2 - g) + (1 + y₁) * (1 - y₂) ^ 3 * ((g + 4) * y₁ ^ 2 - g)) -
      2 * (((g + 4) * y₁ ^ 2 - g) * ((g + 4) * y₂ ^ 2 - g)) * (x₁ * x₂) * (1 - y₁) * (1 - y₂) := by
    have hw0 : x₁ * x₂ ≠ 0 := mul_ne_zero hx₁ hx₂
    have hx : ((1 + y₁) * (1 - y₂) * x₂ - (1 + y₂) * (1 - y₁) * x₁) ^ 2 * g * ((1 - y₁) * (1 - y₂) * g) =
        (g * ((1 + y₂) * (1 - y₁) ^ 3 * ((g + 4) * y₂ ^ 2 - g) + (1 + y₁) * (1 - y₂) ^ 3 * ((g + 4) * y₁ ^ 2 - g)) -
        2 * (((g + 4) * y₁ ^ 2 - g) * ((g + 4) * y₂ ^ 2 - g)) * (x₁ * x₂) * (1 - y₁) * (1 - y₂)) * (x₁ * x₂) ^ 2 := by
      linear_combination (-g * (1 - y₁) ^ 3 * (1 + y₂) * x₁ ^ 2) * h₂ + (-g * (1 - y₂) ^ 3 * (1 + y₁) * x₂ ^ 2) * h₁ +
        2 * (x₁ * x₂) * (1 - y₁) * (1 - y₂) * hw
    have : ∀ N : K, (c * N / (2 * (x₁ * x₂) * (y₁ - y₂))) ^ 2 * (4 * (y₂ - y₁) ^ 2 * (1 - y₁) * (1 - y₂) * g) =
        N ^ 2 * g * ((1 - y₁) * (1 - y₂) * g) / (x₁ * x₂) ^ 2 := by
      intro N
      rw [← hgg]
      field_simp
      ring
    rw [this, hx, mul_div_assoc, div_self (pow_ne_zero _ hw0), mul_one]
  rw [eq_div_iff hD]
  have h4 : 4 * (y₂ - y₁) ^ 2 * (1 - y₁) * (1 - y₂) * g ≠ 0 := by
    have : (4 : K) ≠ 0 := by
      rw [show (4 : K) = 2 * 2 by norm_num]
      exact mul_ne_zero h2 h2
    exact mul_ne_zero (mul_ne_zero (mul_ne_zero (mul_ne_zero this (pow_ne_zero _ (sub_ne_zero.mpr (Ne.symm hy)))) a₁) a₂) hg
  refine mul_left_cancel₀ h4 ?_
  have hu : ∀ l : K, 4 * (y₂ - y₁) ^ 2 * (1 - y₁) * (1 - y₂) * g *
      ((l - (-g - 2) - (1 + y₁) / (1 - y₁) - (1 + y₂) / (1 - y₂)) *
        (g + (g + 4) * (x₁ * x₂) * y₁ * y₂ - g * (y₁ * y₂ + x₁ * x₂))) =
      (l * (4 * (y₂ - y₁) ^ 2 * (1 - y₁) * (1 - y₂) * g) + g * 4 * (y₂ - y₁) ^ 2 *
        ((g + 2) * (1 - y₁) * (1 - y₂) - (1 + y₁) * (1 - y₂) - (1 + y₂) * (1 - y₁))) *
        (g + (g + 4) * (x₁ * x₂) * y₁ * y₂ - g * (y₁ * y₂ + x₁ * x₂)) := by
    intro l
    field_simp
    ring
  rw [hu, hl]
  generalize x₁ * x₂ = w at *
  linear_combination (-2 * (1 - y₁) * (1 - y₂) * ((g + 4) * y₁ * y₂ - g)) * hw

/-- The v-coordinate of a sum of points with different u-coordinates. -/
theorem add_v {c x₁ y₁ x₂ y₂ : K} (hc : c ≠ 0) (h2 : (2 : K) ≠ 0) (hy : y₁ ≠ y₂)
    (h₁ : On (-(c ^ 2 + 4) / c ^ 2) x₁ y₁) (h₂ : On (-(c ^ 2 + 4) / c ^ 2) x₂ y₂) (hx₁ : x₁ ≠ 0) (hx₂ : x₂ ≠ 0)
    (hD : c ^ 2 + (c ^ 2 + 4) * (x₁ * x₂) * y₁ * y₂ - c ^ 2 * (y₁ * y₂ + x₁ * x₂) ≠ 0)
    (hX : x₁ * y₂ + x₂ * y₁ ≠ 0) :
    (c * ((1 + y₁) / (1 - y₁)) / x₁ - c * ((1 + y₂) / (1 - y₂)) / x₂) /
      ((1 + y₁) / (1 - y₁) - (1 + y₂) / (1 - y₂)) * ((1 + y₁) / (1 - y₁) -
        (c ^ 2 + (c ^ 2 + 4) * (x₁ * x₂) * y₁ * y₂ + c ^ 2 * (y₁ * y₂ + x₁ * x₂)) /
        (c ^ 2 + (c ^ 2 + 4) * (x₁ * x₂) * y₁ * y₂ - c ^ 2 * (y₁ * y₂ + x₁ * x₂))) - c * ((1 + y₁) / (1 - y₁)) / x₁ =
    c * ((c ^ 2 + (c ^ 2 + 4) * (x₁ * x₂) * y₁ * y₂ + c ^ 2 * (y₁ * y₂ + x₁ * x₂)) /
        (c ^ 2 + (c ^ 2 + 4) * (x₁ * x₂) * y₁ * y₂ - c ^ 2 * (y₁ * y₂ + x₁ * x₂))) *
      (c ^ 2 - (c ^ 2 + 4) * (x₁ * x₂) * y₁ * y₂) / (c ^ 2 * (x₁ * y₂ + x₂ * y₁)) := by
  have hg : c ^ 2 ≠ 0 := pow_ne_zero _ hc
  obtain ⟨a₁, b₁⟩ := y_ne_one hg h2 h₁ hx₁
  obtain ⟨a₂, b₂⟩ := y_ne_one hg h2 h₂ hx₂
  rw [on_iff hg] at h₁ h₂
  have hyy : y₁ - y₂ ≠ 0 := sub_ne_zero.mpr hy
  have hyy' : y₂ - y₁ ≠ 0 := sub_ne_zero.mpr (Ne.symm hy)
  have hs : (c * ((1 + y₁) / (1 - y₁)) / x₁ - c * ((1 + y₂) / (1 - y₂)) / x₂) /
      ((1 + y₁) / (1 - y₁) - (1 + y₂) / (1 - y₂)) =
      c * ((1 + y₁) * (1 - y₂) * x₂ - (1 + y₂) * (1 - y₁) * x₁) / (2 * (x₁ * x₂) * (y₁ - y₂)) := by
    have : (1 + y₁) / (1 - y₁) - (1 + y₂) / (1 - y₂) = 2 * (y₁ - y₂) / ((1 - y₁) * (1 - y₂)) := by
      field_simp; ring
    rw [this]
    field_simp
  rw [hs]
  generalize c ^ 2 = g at *
  have hw : ((g + 4) * y₁ ^ 2 - g) * ((g + 4) * y₂ ^ 2 - g) * (x₁ * x₂) ^ 2 = g ^ 2 * (1 - y₁ ^ 2) * (1 - y₂ ^ 2) := by
    linear_combination ((g + 4) * y₂ ^ 2 - g) * x₂ ^ 2 * h₁ + g * (1 - y₁ ^ 2) * h₂
  have hm : c * ((1 + y₁) * (1 - y₂) * x₂ - (1 + y₂) * (1 - y₁) * x₁) / (2 * (x₁ * x₂) * (y₁ - y₂)) =
      c * ((1 - y₁) * ((g + 4) * y₂ ^ 2 - g) * (x₁ * x₂) - g * (1 + y₁) * (1 - y₂) ^ 2) /
        (2 * g * (y₂ - y₁) * (1 - y₂) * x₁) := by
    rw [div_eq_div_iff (by simp [*]) (by simp [*])]
    linear_combination (2 * c * x₁ ^ 2 * (1 - y₁) * (y₂ - y₁)) * h₂
  have hS : g * (1 - y₁ ^ 2) * (x₁ * y₂ + x₂ * y₁) =
      x₁ * (g * y₂ * (1 - y₁ ^ 2) + x₁ * x₂ * ((g + 4) * y₁ ^ 2 - g) * y₁) := by
    linear_combination (-x₂ * y₁) * h₁
  have h1y : 1 - y₁ ^ 2 ≠ 0 := by
    rw [show 1 - y₁ ^ 2 = (1 - y₁) * (1 + y₁) by ring]; exact mul_ne_zero a₁ b₁
  have hS0 : g * y₂ * (1 - y₁ ^ 2) + x₁ * x₂ * ((g + 4) * y₁ ^ 2 - g) * y₁ ≠ 0 := by
    intro h
    rw [h, mul_zero] at hS
    exact mul_ne_zero (mul_ne_zero hg h1y) hX hS
  have hX' : g * (x₁ * y₂ + x₂ * y₁) =
      x₁ * (g * y₂ * (1 - y₁ ^ 2) + x₁ * x₂ * ((g + 4) * y₁ ^ 2 - g) * y₁) / (1 - y₁ ^ 2) := by
    rw [eq_div_iff h1y, ← hS]; ring
  rw [hm, hX']
  clear hm hX' hS hs hX
  generalize x₁ * x₂ = w at *
  generalize hDD : g + (g + 4) * w * y₁ * y₂ - g * (y₁ * y₂ + w) = D at *
  generalize hNN : g + (g + 4) * w * y₁ * y₂ + g * (y₁ * y₂ + w) = N at *
  generalize hSS : g * y₂ * (1 - y₁ ^ 2) + w * ((g + 4) * y₁ ^ 2 - g) * y₁ = S at *
  have key : ((1 - y₁) * ((g + 4) * y₂ ^ 2 - g) * w - g * (1 + y₁) * (1 - y₂) ^ 2) * ((1 + y₁) * D - (1 - y₁) * N) * S -
      2 * g * (y₂ - y₁) * (1 - y₂) * (1 + y₁) * D * S =
      N * (g - (g + 4) * w * y₁ * y₂) * (1 - y₁ ^ 2) * (2 * g * (y₂ - y₁) * (1 - y₂)) * (1 - y₁) := by
    rw [← hDD, ← hNN, ← hSS]
    linear_combination ((8 * y₁ ^ 3 * y₂ - 8 * y₁ ^ 4 * y₂ - 2 * g * y₁ + 2 * g * y₁ ^ 2 + 2 * g * y₁ ^ 3 * y₂ -
      2 * g * y₁ ^ 4 * y₂) * w + (2 * g * y₂ - 2 * g * y₁ + 2 * g * y₁ ^ 2 - 4 * g * y₁ ^ 2 * y₂ +
      2 * g * y₁ ^ 3 * y₂)) * hw
  rw [div_mul_eq_mul_div, div_sub_div _ _ (by simp [*]) hx₁, div_eq_div_iff (by simp [*]) (by simp [*])]
  field_simp
  linear_combination key

/-- The u-coordinate of a double. -/
theorem dbl_u {c x y : K} (hc : c ≠ 0) (h2 : (2 : K) ≠ 0) (h : On (-(c ^ 2 + 4) / c ^ 2) x y) (hx : x ≠ 0) :
    ((3 * ((1 + y) / (1 - y)) ^ 2 + 2 * (-c ^ 2 - 2) * ((1 + y) / (1 - y)) + 1) / (2 * (c * ((1 + y) / (1 - y)) / x))) ^ 2 -
      (-c ^ 2 - 2) - (1 + y) / (1 - y) - (1 + y) / (1 - y) =
    (c ^ 2 + (c ^ 2 + 4) * (x * x) * y * y + c ^ 2 * (y * y + x * x)) /
      (c ^ 2 + (c ^ 2 + 4) * (x * x) * y * y - c ^ 2 * (y * y + x * x)) := by
  have hg : c ^ 2 ≠ 0 := pow_ne_zero _ hc
  obtain ⟨a, b⟩ := y_ne_one hg h2 h hx
  rw [on_iff hg] at h
  have hD : c ^ 2 + (c ^ 2 + 4) * (x * x) * y * y - c ^ 2 * (y * y + x * x) = 2 * c ^ 2 * ((1 - y) * (1 + y)) := by
    linear_combination h
  have hs : (3 * ((1 + y) / (1 - y)) ^ 2 + 2 * (-c ^ 2 - 2) * ((1 + y) / (1 - y)) + 1) / (2 * (c * ((1 + y) / (1 - y)) / x)) =
      ((c ^ 2 + 4) * y ^ 2 - c ^ 2 + 2 * y) * x / (c * ((1 - y) * (1 + y))) := by
    field_simp
    ring
  rw [hs, hD]
  field_simp
  linear_combination (2 * ((c ^ 2 + 4) * y ^ 2 - c ^ 2) + 8 * y + y ^ 2 + 1) * h

/-- The v-coordinate of a double. -/
theorem dbl_v {c x y : K} (hc : c ≠ 0) (h2 : (2 : K) ≠ 0) (h : On (-(c ^ 2 + 4) / c ^ 2) x y) (hx : x ≠ 0) (hy : y ≠ 0) :
    (3 * ((1 + y) / (1 - y)) ^ 2 + 2 * (-c ^ 2 - 2) * ((1 + y) / (1 - y)) + 1) / (2 * (c * ((1 + y) / (1 - y)) / x)) *
      ((1 + y) / (1 - y) - (c ^ 2 + (c ^ 2 + 4) * (x * x) * y * y + c ^ 2 * (y * y + x * x)) /
      (c ^ 2 + (c ^ 2 + 4) * (x * x) * y * y - c ^ 2 * (y * y + x * x))) - c * ((1 + y) / (1 - y)) / x =
    c * ((c ^ 2 + (c ^ 2 + 4) * (x * x) * y * y + c ^ 2 * (y * y + x * x)) /
        (c ^ 2 + (c ^ 2 + 4) * (x * x) * y * y - c ^ 2 * (y * y + x * x))) *
      (c ^ 2 - (c ^ 2 + 4) * (x * x) * y * y) / (c ^ 2 * (x * y + x * y)) := by
  have hg : c ^ 2 ≠ 0 := pow_ne_zero _ hc
  obtain ⟨a, b⟩ := y_ne_one hg h2 h hx
  rw [on_iff hg] at h
  have hD : c ^ 2 + (c ^ 2 + 4) * (x * x) * y * y - c ^ 2 * (y * y + x * x) = 2 * c ^ 2 * ((1 - y) * (1 + y)) := by
    linear_combination h
  have hs : (3 * ((1 + y) / (1 - y)) ^ 2 + 2 * (-c ^ 2 - 2) * ((1 + y) / (1 - y)) + 1) / (2 * (c * ((1 + y) / (1 - y)) / x)) =
      ((c ^ 2 + 4) * y ^ 2 - c ^ 2 + 2 * y) * x / (c * ((1 - y) * (1 + y))) := by
    field_simp
    ring
  rw [hs, hD]
  have e : c ^ 2 * (x * y + x * y) = 2 * c ^ 2 * y * x := by ring
  rw [e]
  have key : 2 * y * ((c ^ 2 + 4) * y ^ 2 - c ^ 2 + 2 * y) * x ^ 2 * (2 * c ^ 2 * (1 + y) ^ 2 -
      (c ^ 2 + (c ^ 2 + 4) * (x * x) * y * y + c ^ 2 * (y * y + x * x))) - 4 * c ^ 4 * y * (1 - y) * (1 + y) ^ 3 =
      (c ^ 2 + (c ^ 2 + 4) * (x * x) * y * y + c ^ 2 * (y * y + x * x)) * (c ^ 2 - (c ^ 2 + 4) * (x * x) * y * y) *
        ((1 - y) * (1 + y)) := by
    linear_combination (-c ^ 2 * y ^ 4 * x ^ 2 - 2 * c ^ 2 * y ^ 3 * x ^ 2 + 4 * c ^ 2 * y ^ 3 - c ^ 2 * y ^ 2 * x ^ 2 +
      9 * c ^ 2 * y ^ 2 - 2 * c ^ 2 * y * x ^ 2 + 4 * c ^ 2 * y + c ^ 2 - 4 * y ^ 4 * x ^ 2 - 8 * y ^ 3 * x ^ 2) * h
  generalize c ^ 2 + (c ^ 2 + 4) * (x * x) * y * y + c ^ 2 * (y * y + x * x) = N at *
  generalize c ^ 2 - (c ^ 2 + 4) * (x * x) * y * y = P at *
  have h4 : (4 : K) ≠ 0 := by
    rw [show (4 : K) = 2 * 2 by norm_num]
    exact mul_ne_zero h2 h2
  field_simp
  linear_combination key

/-- Adding the point of order two. -/
theorem two_u {c x y : K} (hc : c ≠ 0) (h2 : (2 : K) ≠ 0) (h : On (-(c ^ 2 + 4) / c ^ 2) x y) (hx : x ≠ 0) :
    (c * ((1 + y) / (1 - y)) / x / ((1 + y) / (1 - y))) ^ 2 - (-c ^ 2 - 2) - (1 + y) / (1 - y) =
      (1 + -y) / (1 - -y) := by
  have hg : c ^ 2 ≠ 0 := pow_ne_zero _ hc
  obtain ⟨a, b⟩ := y_ne_one hg h2 h hx
  rw [on_iff hg] at h
  rw [sub_neg_eq_add, ← sub_eq_add_neg]
  field_simp
  linear_combination -h

end CryptoPure.Edwards
