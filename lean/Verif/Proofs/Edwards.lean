import Verif.Proofs.EdwardsAlg
import Verif.Proofs.Montgomery

/-! # The complete Edwards addition law is a group law

The map to the Montgomery curve is injective and additive, so that associativity is inherited from Mathlib's group
of points of a Weierstrass curve. -/

namespace CryptoPure.Edwards
open WeierstrassCurve Montgomery

set_option linter.unusedSectionVars false

variable {K : Type*} [Field K] [DecidableEq K]

/-- The addition law on pairs. -/
def addP (d : K) (P Q : K × K) : K × K :=
  ((P.1 * Q.2 + Q.1 * P.2) / (1 + d * P.1 * Q.1 * P.2 * Q.2), (P.2 * Q.2 + P.1 * Q.1) / (1 - d * P.1 * Q.1 * P.2 * Q.2))

/-- What is needed of `c` (`c² = -486664`) for the curve with `d = -(c² + 4) / c²`. -/
structure Hyp (c : K) : Prop where
  two : (2 : K) ≠ 0
  c0 : c ≠ 0
  sqrtm1 : ∃ i : K, i ^ 2 = -1
  nonsq : ¬ IsSquare (-(c ^ 2 + 4) / c ^ 2)

namespace Hyp
variable {c : K} (H : Hyp c)
include H

theorem g0 : c ^ 2 ≠ 0 := pow_ne_zero _ H.c0

theorem g4 : c ^ 2 + 4 ≠ 0 := by
  intro h
  refine H.nonsq ⟨0, ?_⟩
  rw [h]; simp

theorem four : (4 : K) ≠ 0 := by
  rw [show (4 : K) = 2 * 2 by norm_num]
  exact mul_ne_zero H.two H.two

theorem A_ne : (-c ^ 2 - 2) ^ 2 ≠ 4 := by
  intro h
  refine mul_ne_zero H.g0 H.g4 ?_
  linear_combination h

end Hyp

/-- Points of the Edwards curve. -/
abbrev Pt (c : K) : Type _ := { P : K × K // On (-(c ^ 2 + 4) / c ^ 2) P.1 P.2 }

theorem x_zero {d y : K} (h : On d 0 y) : y = 1 ∨ y = -1 := by
  unfold On at h
  have : (y - 1) * (y + 1) = 0 := by linear_combination h
  rcases mul_eq_zero.mp this with h | h
  · left; linear_combination h
  · right; linear_combination h

/-- The Montgomery coordinates satisfy the equation. -/
theorem mont_on {c x y : K} (H : Hyp c) (h : On (-(c ^ 2 + 4) / c ^ 2) x y) (hne : ¬ (x = 0 ∧ y = 1)) :
    (c * ((1 + y) / (1 - y)) / x) ^ 2 =
      ((1 + y) / (1 - y)) ^ 3 + (-c ^ 2 - 2) * ((1 + y) / (1 - y)) ^ 2 + (1 + y) / (1 - y) := by
  by_cases hx : x = 0
  · subst hx
    rcases x_zero h with rfl | rfl
    · exact absurd ⟨rfl, rfl⟩ hne
    · simp
  · exact mont_eq H.c0 hx (y_ne_one H.g0 H.two h hx).1 h

/-- The isomorphism with the Montgomery curve. -/
def phi {c : K} (H : Hyp c) (P : Pt c) : (curve (-c ^ 2 - 2)).Point :=
  if h : P.1.1 = 0 ∧ P.1.2 = 1 then 0
  else .some ((1 + P.1.2) / (1 - P.1.2)) (c * ((1 + P.1.2) / (1 - P.1.2)) / P.1.1)
    (nonsingular_of H.two H.A_ne (mont_on H P.2 h))

theorem phi_zero {c : K} (H : Hyp c) {y : K} (h : On (-(c ^ 2 + 4) / c ^ 2) 0 y) (hy : y = 1) : phi H ⟨(0, y), h⟩ = 0 := by
  subst hy
  unfold phi
  rw [dif_pos ⟨rfl, rfl⟩]

theorem phi_some {c : K} (H : Hyp c) (P : Pt c) (h : ¬ (P.1.1 = 0 ∧ P.1.2 = 1)) {u v : K}
    (hu : (1 + P.1.2) / (1 - P.1.2) = u) (hv : c * ((1 + P.1.2) / (1 - P.1.2)) / P.1.1 = v) :
    ∃ hn, phi H P = .some u v hn := by
  subst hu hv
  unfold phi
  rw [dif_neg h]
  exact ⟨_, rfl⟩

theorem one_sub_ne {c x y : K} (H : Hyp c) (h : On (-(c ^ 2 + 4) / c ^ 2) x y) (hne : ¬ (x = 0 ∧ y = 1)) : 1 - y ≠ 0 := by
  by_cases hx : x = 0
  · subst hx
    rcases x_zero h with rfl | rfl
    · exact absurd ⟨rfl, rfl⟩ hne
    · rw [sub_neg_eq_add, one_add_one_eq_two]; exact H.two
  · exact (y_ne_one H.g0 H.two h hx).1

theorem u_inj {y y' : K} (h2 : (2 : K) ≠ 0) (h : 1 - y ≠ 0) (h' : 1 - y' ≠ 0) (he : (1 + y) / (1 - y) = (1 + y') / (1 - y')) : y = y' := by
  rw [div_eq_div_iff h h'] at he
  have : 2 * (y - y') = 0 := by linear_combination he
  exact sub_eq_zero.mp ((mul_eq_zero.mp this).resolve_left h2)

theorem phi_inj {c : K} (H : Hyp c) : Function.Injective (phi H) := by
  rintro ⟨⟨x, y⟩, h⟩ ⟨⟨x', y'⟩, h'⟩ he
  by_cases h0 : x = 0 ∧ y = 1
  · obtain ⟨rfl, rfl⟩ := h0
    rw [phi_zero H h rfl] at he
    by_cases h0' : x' = 0 ∧ y' = 1
    · obtain ⟨rfl, rfl⟩ := h0'; rfl
    · obtain ⟨hn, e⟩ := phi_some H ⟨(x', y'), h'⟩ h0' rfl rfl
      rw [e] at he
      exact absurd he.symm (Affine.Point.some_ne_zero hn)
  · obtain ⟨hn, e⟩ := phi_some H ⟨(x, y), h⟩ h0 rfl rfl
    rw [e] at he
    by_cases h0' : x' = 0 ∧ y' = 1
    · obtain ⟨rfl, rfl⟩ := h0'
      rw [phi_zero H h' rfl] at he
      exact absurd he (Affine.Point.some_ne_zero hn)
    · obtain ⟨hn', e'⟩ := phi_some H ⟨(x', y'), h'⟩ h0' rfl rfl
      rw [e'] at he
      injection he with hu hv
      simp only at hu hv h h'
      have hy := u_inj H.two (one_sub_ne H h h0) (one_sub_ne H h' h0') hu
      subst hy
      have hx : x = x' := by
        by_cases hx : x = 0
        · subst hx
          by_contra hx'
          have := x_zero h
          have h3 := y_ne_one H.g0 H.two h' (Ne.symm hx')
          rcases this with rfl | rfl
          · exact h3.1 (sub_self _)
          · exact h3.2 (add_neg_cancel _)
        · have hy1 := y_ne_one H.g0 H.two h hx
          by_cases hx' : x' = 0
          · subst hx'
            have := x_zero h'
            rcases this with rfl | rfl
            · exact absurd (sub_self _) hy1.1
            · exact absurd (add_neg_cancel _) hy1.2
          · have hu0 : c * ((1 + y) / (1 - y)) ≠ 0 := mul_ne_zero H.c0 (div_ne_zero hy1.2 hy1.1)
            rw [div_eq_div_iff hx hx'] at hv
            exact (mul_left_cancel₀ hu0 hv).symm
      subst hx
      rfl

theorem addP_comm (d : K) (P Q : K × K) : addP d P Q = addP d Q P := by
  unfold addP
  refine Prod.ext ?_ ?_ <;> simp only <;> congr 1 <;> ring

theorem addP_on {c : K} (H : Hyp c) {P Q : K × K} (hP : On (-(c ^ 2 + 4) / c ^ 2) P.1 P.2)
    (hQ : On (-(c ^ 2 + 4) / c ^ 2) Q.1 Q.2) :
    On (-(c ^ 2 + 4) / c ^ 2) (addP (-(c ^ 2 + 4) / c ^ 2) P Q).1 (addP (-(c ^ 2 + 4) / c ^ 2) P Q).2 := by
  obtain ⟨i, hi⟩ := H.sqrtm1
  obtain ⟨h1, h2⟩ := den_add H.two hi H.nonsq hP hQ
  exact on_add hP hQ h1 h2

/-- Addition of points. -/
def addPt {c : K} (H : Hyp c) (P Q : Pt c) : Pt c := ⟨addP (-(c ^ 2 + 4) / c ^ 2) P.1 Q.1, addP_on H P.2 Q.2⟩

theorem addPt_comm {c : K} (H : Hyp c) (P Q : Pt c) : addPt H P Q = addPt H Q P := Subtype.ext (addP_comm _ _ _)

theorem den_m {g t : K} (hg : g ≠ 0) : 1 - -(g + 4) / g * t = (g + (g + 4) * t) / g := by
  field_simp; ring

theorem den_p {g t : K} (hg : g ≠ 0) : 1 + -(g + 4) / g * t = (g - (g + 4) * t) / g := by
  field_simp; ring

theorem one_sub_div' {g M Y : K} (hM : M ≠ 0) : 1 - Y / (M / g) = (M - g * Y) / M := by field_simp
theorem one_add_div' {g M Y : K} (hM : M ≠ 0) : 1 + Y / (M / g) = (M + g * Y) / M := by field_simp

/-- Completion of the proof for a sum given by the chord or tangent. -/
theorem phi_sum {c : K} (H : Hyp c) {x₁ y₁ x₂ y₂ u v : K} (h₁ : On (-(c ^ 2 + 4) / c ^ 2) x₁ y₁)
    (h₂ : On (-(c ^ 2 + 4) / c ^ 2) x₂ y₂) (hn : (curve (-c ^ 2 - 2)).Nonsingular u v)
    (hD : c ^ 2 + (c ^ 2 + 4) * (x₁ * x₂) * y₁ * y₂ - c ^ 2 * (y₁ * y₂ + x₁ * x₂) ≠ 0)
    (hu : u = (c ^ 2 + (c ^ 2 + 4) * (x₁ * x₂) * y₁ * y₂ + c ^ 2 * (y₁ * y₂ + x₁ * x₂)) /
      (c ^ 2 + (c ^ 2 + 4) * (x₁ * x₂) * y₁ * y₂ - c ^ 2 * (y₁ * y₂ + x₁ * x₂)))
    (hv : x₁ * y₂ + x₂ * y₁ ≠ 0 → v = c * u * (c ^ 2 - (c ^ 2 + 4) * (x₁ * x₂) * y₁ * y₂) / (c ^ 2 * (x₁ * y₂ + x₂ * y₁))) :
    phi H (addPt H ⟨(x₁, y₁), h₁⟩ ⟨(x₂, y₂), h₂⟩) = .some u v hn := by
  have hg := H.g0
  obtain ⟨i, hi⟩ := H.sqrtm1
  obtain ⟨dp, dm⟩ := den_add H.two hi H.nonsq h₁ h₂
  have hon : On (-(c ^ 2 + 4) / c ^ 2) (addPt H ⟨(x₁, y₁), h₁⟩ ⟨(x₂, y₂), h₂⟩).1.1
    (addPt H ⟨(x₁, y₁), h₁⟩ ⟨(x₂, y₂), h₂⟩).1.2 := (addPt H ⟨(x₁, y₁), h₁⟩ ⟨(x₂, y₂), h₂⟩).2
  have ex : (addPt H ⟨(x₁, y₁), h₁⟩ ⟨(x₂, y₂), h₂⟩).1.1 =
      (x₁ * y₂ + x₂ * y₁) / (1 + -(c ^ 2 + 4) / c ^ 2 * x₁ * x₂ * y₁ * y₂) := rfl
  have ey : (addPt H ⟨(x₁, y₁), h₁⟩ ⟨(x₂, y₂), h₂⟩).1.2 =
      (y₁ * y₂ + x₁ * x₂) / (1 - -(c ^ 2 + 4) / c ^ 2 * x₁ * x₂ * y₁ * y₂) := rfl
  generalize addPt H ⟨(x₁, y₁), h₁⟩ ⟨(x₂, y₂), h₂⟩ = S at *
  have dm' : 1 - -(c ^ 2 + 4) / c ^ 2 * x₁ * x₂ * y₁ * y₂ = (c ^ 2 + (c ^ 2 + 4) * (x₁ * x₂) * y₁ * y₂) / c ^ 2 := by
    have := den_m (t := x₁ * x₂ * y₁ * y₂) hg
    simpa only [mul_assoc] using this
  have dp' : 1 + -(c ^ 2 + 4) / c ^ 2 * x₁ * x₂ * y₁ * y₂ = (c ^ 2 - (c ^ 2 + 4) * (x₁ * x₂) * y₁ * y₂) / c ^ 2 := by
    have := den_p (t := x₁ * x₂ * y₁ * y₂) hg
    simpa only [mul_assoc] using this
  rw [dm'] at dm ey
  rw [dp'] at dp ex
  have hm : c ^ 2 + (c ^ 2 + 4) * (x₁ * x₂) * y₁ * y₂ ≠ 0 := fun h => dm (by rw [h, zero_div])
  have hp : c ^ 2 - (c ^ 2 + 4) * (x₁ * x₂) * y₁ * y₂ ≠ 0 := fun h => dp (by rw [h, zero_div])
  have e1 : 1 - S.1.2 = (c ^ 2 + (c ^ 2 + 4) * (x₁ * x₂) * y₁ * y₂ - c ^ 2 * (y₁ * y₂ + x₁ * x₂)) /
      (c ^ 2 + (c ^ 2 + 4) * (x₁ * x₂) * y₁ * y₂) := by
    rw [ey]; exact one_sub_div' hm
  have e2 : 1 + S.1.2 = (c ^ 2 + (c ^ 2 + 4) * (x₁ * x₂) * y₁ * y₂ + c ^ 2 * (y₁ * y₂ + x₁ * x₂)) /
      (c ^ 2 + (c ^ 2 + 4) * (x₁ * x₂) * y₁ * y₂) := by
    rw [ey]; exact one_add_div' hm
  have hy1 : 1 - S.1.2 ≠ 0 := by rw [e1]; exact div_ne_zero hD hm
  have hS : ¬ (S.1.1 = 0 ∧ S.1.2 = 1) := fun h => hy1 (by rw [h.2, sub_self])
  have hu' : (1 + S.1.2) / (1 - S.1.2) = u := by
    rw [e1, e2, hu, div_div_div_cancel_right₀ hm]
  have hv' : c * ((1 + S.1.2) / (1 - S.1.2)) / S.1.1 = v := by
    by_cases hx : S.1.1 = 0
    · rw [hx, div_zero]
      rw [hx] at hon
      have hy : S.1.2 = -1 := (x_zero hon).resolve_left fun h => hy1 (by rw [h, sub_self])
      have hu0 : u = 0 := by rw [← hu', hy]; simp
      have := equation_iff.mp hn.1
      rw [hu0] at this
      have : v ^ 2 = 0 := by rw [this]; ring
      exact (pow_eq_zero_iff (by norm_num)).mp this |>.symm
    · have hX : x₁ * y₂ + x₂ * y₁ ≠ 0 := fun h => hx (by rw [ex, h, zero_div])
      rw [hu', ex, hv hX]
      field_simp
  obtain ⟨hn', e⟩ := phi_some H S hS hu' hv'
  exact e

theorem addY_eq {A x₁ x₂ y₁ l : K} : (curve A).addY x₁ x₂ y₁ l = l * (x₁ - (curve A).addX x₁ x₂ l) - y₁ := by
  simp only [Affine.addY, Affine.negAddY, negY_eq]
  ring

theorem zero_addPt {c : K} (H : Hyp c) {x y : K} (h0 : On (-(c ^ 2 + 4) / c ^ 2) 0 1) (h : On (-(c ^ 2 + 4) / c ^ 2) x y) :
    addPt H ⟨(0, 1), h0⟩ ⟨(x, y), h⟩ = ⟨(x, y), h⟩ := by
  refine Subtype.ext ?_
  simp [addPt, addP]

/-- Adding the point of order two. -/
theorem phi_two {c : K} (H : Hyp c) {x y : K} (h0 : On (-(c ^ 2 + 4) / c ^ 2) 0 (-1)) (h : On (-(c ^ 2 + 4) / c ^ 2) x y) :
    phi H (addPt H ⟨(0, -1), h0⟩ ⟨(x, y), h⟩) = phi H ⟨(0, -1), h0⟩ + phi H ⟨(x, y), h⟩ := by
  have hne : (-1 : K) ≠ 1 := by
    intro h
    refine H.two ?_
    linear_combination -h
  obtain ⟨n0, e0⟩ := phi_some H ⟨(0, -1), h0⟩ (fun h => hne h.2) (u := 0) (v := 0) (by simp) (by simp)
  have hs : (addPt H ⟨(0, -1), h0⟩ ⟨(x, y), h⟩).1 = (-x, -y) := by simp [addPt, addP]
  have hon := (addPt H ⟨(0, -1), h0⟩ ⟨(x, y), h⟩).2
  generalize addPt H ⟨(0, -1), h0⟩ ⟨(x, y), h⟩ = S at *
  obtain ⟨S, hS⟩ := S
  simp only at hs hon
  subst hs
  simp only at hon
  by_cases hx : x = 0
  · subst hx
    rcases x_zero h with rfl | rfl
    · rw [phi_zero H h rfl, add_zero]
      congr 2
      simp
    · rw [e0, Affine.Point.add_self_of_Y_eq (by rw [negY_eq, neg_zero])]
      unfold phi
      rw [dif_pos ⟨neg_zero, neg_neg _⟩]
  · obtain ⟨a, b⟩ := y_ne_one H.g0 H.two h hx
    have hu : (1 + y) / (1 - y) ≠ 0 := div_ne_zero b a
    obtain ⟨n1, e1⟩ := phi_some H ⟨(x, y), h⟩ (fun h => hx h.1) rfl rfl
    obtain ⟨n3, e3⟩ := phi_some H ⟨(-x, -y), hS⟩ (fun h => hx (neg_eq_zero.mp h.1)) rfl rfl
    rw [e0, e1, e3]
    simp only at *
    rw [Affine.Point.add_of_X_ne (Ne.symm hu)]
    have hsl : (curve (-c ^ 2 - 2)).slope 0 ((1 + y) / (1 - y)) 0 (c * ((1 + y) / (1 - y)) / x) =
        c * ((1 + y) / (1 - y)) / x / ((1 + y) / (1 - y)) := by
      rw [Affine.slope_of_X_ne (Ne.symm hu), zero_sub, zero_sub, neg_div_neg_eq]
    have hX : (curve (-c ^ 2 - 2)).addX 0 ((1 + y) / (1 - y)) ((curve (-c ^ 2 - 2)).slope 0 ((1 + y) / (1 - y)) 0
        (c * ((1 + y) / (1 - y)) / x)) = (1 + -y) / (1 - -y) := by
      rw [addX_eq, hsl, ← two_u H.c0 H.two h hx]
      ring
    congr 1
    · exact hX.symm
    · rw [addY_eq, hX, hsl]
      field_simp
      ring

theorem phi_add {c : K} (H : Hyp c) (P Q : Pt c) : phi H (addPt H P Q) = phi H P + phi H Q := by
  obtain ⟨⟨x₁, y₁⟩, h₁⟩ := P
  obtain ⟨⟨x₂, y₂⟩, h₂⟩ := Q
  by_cases hx₁ : x₁ = 0
  · subst hx₁
    rcases x_zero h₁ with rfl | rfl
    · rw [zero_addPt, phi_zero H h₁ rfl, zero_add]
    · exact phi_two H h₁ h₂
  by_cases hx₂ : x₂ = 0
  · subst hx₂
    rcases x_zero h₂ with rfl | rfl
    · rw [addPt_comm, zero_addPt, phi_zero H h₂ rfl, add_zero]
    · rw [addPt_comm, phi_two H h₂ h₁, add_comm]
  simp only at h₁ h₂
  obtain ⟨n₁, e₁⟩ := phi_some H ⟨(x₁, y₁), h₁⟩ (fun h => hx₁ h.1) rfl rfl
  obtain ⟨n₂, e₂⟩ := phi_some H ⟨(x₂, y₂), h₂⟩ (fun h => hx₂ h.1) rfl rfl
  rw [e₁, e₂]
  simp only at *
  obtain ⟨a₁, b₁⟩ := y_ne_one H.g0 H.two h₁ hx₁
  obtain ⟨a₂, b₂⟩ := y_ne_one H.g0 H.two h₂ hx₂
  obtain ⟨i, hi⟩ := H.sqrtm1
  by_cases hy : y₁ = y₂
  · subst hy
    have hk : x₁ ^ 2 = x₂ ^ 2 := by
      have k1 := (on_iff H.g0).mp h₁
      have k2 := (on_iff H.g0).mp h₂
      have hk0 : (c ^ 2 + 4) * y₁ ^ 2 - c ^ 2 ≠ 0 := by
        intro h
        rw [h, zero_mul] at k1
        have : c ^ 2 * ((1 - y₁) * (1 + y₁)) = 0 := by linear_combination -k1
        exact mul_ne_zero H.g0 (mul_ne_zero a₁ b₁) this
      exact mul_left_cancel₀ hk0 (k1.trans k2.symm)
    rcases sq_eq_sq_iff_eq_or_eq_neg.mp hk with hx | hx
    · -- doubling
      subst hx
      have hu : (1 + y₁) / (1 - y₁) ≠ 0 := div_ne_zero b₁ a₁
      have hvn : c * ((1 + y₁) / (1 - y₁)) / x₁ ≠ 0 := div_ne_zero (mul_ne_zero H.c0 hu) hx₁
      have hyn : c * ((1 + y₁) / (1 - y₁)) / x₁ ≠
          (curve (-c ^ 2 - 2)).negY ((1 + y₁) / (1 - y₁)) (c * ((1 + y₁) / (1 - y₁)) / x₁) := by
        rw [negY_eq]
        intro h
        refine mul_ne_zero H.two hvn ?_
        linear_combination h
      rw [Affine.Point.add_self_of_Y_ne hyn]
      have hsl : (curve (-c ^ 2 - 2)).slope ((1 + y₁) / (1 - y₁)) ((1 + y₁) / (1 - y₁))
          (c * ((1 + y₁) / (1 - y₁)) / x₁) (c * ((1 + y₁) / (1 - y₁)) / x₁) =
          (3 * ((1 + y₁) / (1 - y₁)) ^ 2 + 2 * (-c ^ 2 - 2) * ((1 + y₁) / (1 - y₁)) + 1) /
            (2 * (c * ((1 + y₁) / (1 - y₁)) / x₁)) := by
        rw [Affine.slope_of_Y_ne rfl hyn, negY_eq]
        simp only [curve]
        congr 1 <;> ring
      have hX := dbl_u H.c0 H.two h₁ hx₁
      have hD : c ^ 2 + (c ^ 2 + 4) * (x₁ * x₁) * y₁ * y₁ - c ^ 2 * (y₁ * y₁ + x₁ * x₁) ≠ 0 := by
        have : c ^ 2 + (c ^ 2 + 4) * (x₁ * x₁) * y₁ * y₁ - c ^ 2 * (y₁ * y₁ + x₁ * x₁) =
            2 * c ^ 2 * ((1 - y₁) * (1 + y₁)) := by linear_combination (on_iff H.g0).mp h₁
        rw [this]
        exact mul_ne_zero (mul_ne_zero H.two H.g0) (mul_ne_zero a₁ b₁)
      refine phi_sum H h₁ h₁ _ hD ?_ fun hX0 => ?_
      · rw [addX_eq, hsl]; exact hX
      · have hy0 : y₁ ≠ 0 := by rintro rfl; simp at hX0
        rw [addY_eq, addX_eq, hsl, hX]
        exact dbl_v H.c0 H.two h₁ hx₁ hy0
    · -- opposite points
      subst hx
      have hneg : (Affine.Point.some _ _ n₂ : (curve (-c ^ 2 - 2)).Point) = -(Affine.Point.some _ _ n₁) := by
        rw [Affine.Point.neg_some]
        congr 1
        rw [negY_eq]
        field_simp
      rw [hneg, add_neg_cancel]
      have hS : (addPt H ⟨(-x₂, y₁), h₁⟩ ⟨(x₂, y₁), h₂⟩).1 = (0, 1) := by
        simp only [addPt, addP]
        obtain ⟨dp, dm⟩ := den_add H.two hi H.nonsq h₁ h₂
        refine Prod.ext ?_ ?_
        · simp only
          rw [show -x₂ * y₁ + x₂ * y₁ = 0 by ring, zero_div]
        · simp only
          rw [div_eq_one_iff_eq dm]
          unfold On at h₂
          linear_combination h₂
      generalize addPt H ⟨(-x₂, y₁), h₁⟩ ⟨(x₂, y₁), h₂⟩ = S at *
      unfold phi
      rw [dif_pos ⟨by rw [hS], by rw [hS]⟩]
  · -- chord
    have hu : (1 + y₁) / (1 - y₁) ≠ (1 + y₂) / (1 - y₂) := fun h => hy (u_inj H.two a₁ a₂ h)
    rw [Affine.Point.add_of_X_ne hu]
    have hD := d3_ne (w := x₁ * x₂) H.g0 H.two hy (by
      intro h
      refine den_y hi H.nonsq (y₁ * y₂) ?_
      have := den_p (t := (y₁ * y₂) ^ 2) H.g0
      rw [this, show c ^ 2 - (c ^ 2 + 4) * (y₁ * y₂) ^ 2 = 0 by linear_combination -h, zero_div]) (by
      have k1 := (on_iff H.g0).mp h₁
      have k2 := (on_iff H.g0).mp h₂
      linear_combination ((c ^ 2 + 4) * y₂ ^ 2 - c ^ 2) * x₂ ^ 2 * k1 + c ^ 2 * (1 - y₁ ^ 2) * k2)
    have hX := add_u H.c0 H.two hy h₁ h₂ hx₁ hx₂ hD
    refine phi_sum H h₁ h₂ _ hD ?_ fun hX0 => ?_
    · rw [addX_eq, Affine.slope_of_X_ne hu]; exact hX
    · rw [addY_eq, addX_eq, Affine.slope_of_X_ne hu, hX]
      exact add_v H.c0 H.two hy h₁ h₂ hx₁ hx₂ hD hX0

theorem addPt_assoc {c : K} (H : Hyp c) (P Q R : Pt c) : addPt H (addPt H P Q) R = addPt H P (addPt H Q R) := by
  refine phi_inj H ?_
  rw [phi_add, phi_add, phi_add, phi_add, add_assoc]

theorem addP_assoc {c : K} (H : Hyp c) {P Q R : K × K} (hP : On (-(c ^ 2 + 4) / c ^ 2) P.1 P.2)
    (hQ : On (-(c ^ 2 + 4) / c ^ 2) Q.1 Q.2) (hR : On (-(c ^ 2 + 4) / c ^ 2) R.1 R.2) :
    addP (-(c ^ 2 + 4) / c ^ 2) (addP (-(c ^ 2 + 4) / c ^ 2) P Q) R =
      addP (-(c ^ 2 + 4) / c ^ 2) P (addP (-(c ^ 2 + 4) / c ^ 2) Q R) :=
  congrArg Subtype.val (addPt_assoc H ⟨P, hP⟩ ⟨Q, hQ⟩ ⟨R, hR⟩)

theorem addP_neg {c : K} (H : Hyp c) {x y : K} (h : On (-(c ^ 2 + 4) / c ^ 2) x y) :
    addP (-(c ^ 2 + 4) / c ^ 2) (-x, y) (x, y) = (0, 1) := by
  obtain ⟨i, hi⟩ := H.sqrtm1
  have h' : On (-(c ^ 2 + 4) / c ^ 2) (-x) y := by unfold On at *; linear_combination h
  obtain ⟨dp, dm⟩ := den_add H.two hi H.nonsq h' h
  unfold addP
  refine Prod.ext ?_ ?_
  · simp only
    rw [show -x * y + x * y = 0 by ring, zero_div]
  · simp only
    rw [div_eq_one_iff_eq dm]
    unfold On at h
    linear_combination h

end CryptoPure.Edwards
