import Verif.Proofs.Ladder
import Mathlib.NumberTheory.LegendreSymbol.QuadraticChar.Basic
import Mathlib.GroupTheory.OrderOfElement
import Mathlib.GroupTheory.Coset.Card

/-! # Counting points of Curve25519 and of its quadratic twist

Both groups are realised inside the points over an extension field `K`: for `w ∈ K` with `w² = e ∈ F`, the points
`(x, w y)` with `x, y ∈ F` form, with the point at infinity, a finite subgroup; `e = 1` gives the curve over `F`, a
nonsquare `e` gives the twist. -/

namespace CryptoPure.MontOrder
open WeierstrassCurve Montgomery Spec CryptoPure.Ladder

set_option linter.unusedSectionVars false

/-- The right-hand side of the curve equation. -/
def rhs (x : F) : F := x ^ 3 + 486662 * x ^ 2 + x

/-- Affine solutions of `e y² = x³ + 486662 x² + x`. -/
abbrev Sol (e : F) : Type := { q : F × F // e * q.2 ^ 2 = rhs q.1 }

section
variable {K : Type*} [Field K] [DecidableEq K] [Algebra F K]

local notation "ι" => algebraMap F K

theorem sol_eq {w : K} {e : F} (hw : w ^ 2 = ι e) {x y : F} (h : e * y ^ 2 = rhs x) :
    (w * ι y) ^ 2 = (ι x) ^ 3 + 486662 * (ι x) ^ 2 + ι x := by
  have := congrArg (ι) h
  rw [rhs, map_mul, map_pow, map_add, map_add, map_mul, map_pow, map_pow, map_ofNat, ← hw] at this
  rw [mul_pow, this]

/-- The point with coordinates `(x, w y)`. -/
def pt {w : K} {e : F} (hw : w ^ 2 = ι e) (q : Sol e) : (curve (486662 : K)).Point :=
  .some (ι q.1.1) (w * ι q.1.2) (nonsingular_of two_ne' A_ne' (sol_eq hw q.2))

/-- Points with coordinates `(x, w y)`, and infinity. -/
def inT (w : K) (e : F) (P : (curve (486662 : K)).Point) : Prop :=
  P = 0 ∨ ∃ x y : F, e * y ^ 2 = rhs x ∧ ∃ h, P = .some (ι x) (w * ι y) h

theorem inT_some {w : K} {e : F} (hw : w ^ 2 = ι e) {X Y : K} {h : (curve (486662 : K)).Nonsingular X Y} {x y : F}
    (hx : X = ι x) (hy : Y = w * ι y) : inT w e (.some X Y h) := by
  subst hx hy
  refine Or.inr ⟨x, y, ?_, h, rfl⟩
  have := equation_iff.mp h.1
  rw [mul_pow, hw] at this
  apply (ι).injective
  rw [rhs, map_mul, map_pow, map_add, map_add, map_mul, map_pow, map_pow, map_ofNat]
  exact this

theorem slope_in {w : K} {e : F} (he : e ≠ 0) (hw : w ^ 2 = ι e) (x₁ x₂ y₁ y₂ : F)
    (hne : ¬ (ι x₁ = ι x₂ ∧ w * ι y₁ = (curve (486662 : K)).negY (ι x₂) (w * ι y₂)))
    (heq : x₁ = x₂ → y₁ = y₂ ∨ y₁ = - y₂) :
    ∃ l : F, (curve (486662 : K)).slope (ι x₁) (ι x₂) (w * ι y₁) (w * ι y₂) = w * ι l := by
  have hw0 : w ≠ 0 := by
    rintro rfl
    rw [zero_pow two_ne_zero] at hw
    exact he ((map_eq_zero (ι)).mp hw.symm)
  by_cases hx : x₁ = x₂
  · subst hx
    rw [negY_eq] at hne
    have hy : y₁ = y₂ := by
      rcases heq rfl with h | h
      · exact h
      · exact absurd ⟨rfl, by rw [h, map_neg, mul_neg]⟩ hne
    subst hy
    have hy0 : w * ι y₁ ≠ -(w * ι y₁) := fun h => hne ⟨rfl, h⟩
    have hy1 : ι y₁ ≠ 0 := by
      intro h; rw [h] at hy0; simp at hy0
    refine ⟨(3 * x₁ ^ 2 + 2 * 486662 * x₁ + 1) / (2 * e * y₁), ?_⟩
    rw [Affine.slope_of_Y_ne rfl (by rw [negY_eq]; exact hy0), negY_eq]
    simp only [curve]
    rw [map_div₀]
    simp only [map_add, map_mul, map_pow, map_ofNat, map_one]
    rw [← hw]
    have h2 : (2 : K) ≠ 0 := two_ne'
    rw [show w * ι y₁ - -(w * ι y₁) = 2 * w * ι y₁ by ring]
    field_simp
    ring
  · refine ⟨(y₁ - y₂) / (x₁ - x₂), ?_⟩
    rw [Affine.slope_of_X_ne (fun h => hx ((ι).injective h)), map_div₀, map_sub, map_sub]
    ring

theorem inT_add {w : K} {e : F} (he : e ≠ 0) (hw : w ^ 2 = ι e) {P Q : (curve (486662 : K)).Point} (hP : inT w e P) (hQ : inT w e Q) :
    inT w e (P + Q) := by
  rcases hP with rfl | ⟨x₁, y₁, e₁, h₁, rfl⟩
  · rwa [zero_add]
  rcases hQ with rfl | ⟨x₂, y₂, e₂, h₂, rfl⟩
  · rw [add_zero]; exact Or.inr ⟨x₁, y₁, e₁, h₁, rfl⟩
  by_cases hne : ι x₁ = ι x₂ ∧ w * ι y₁ = (curve (486662 : K)).negY (ι x₂) (w * ι y₂)
  · left
    exact Affine.Point.add_of_Y_eq hne.1 hne.2
  · obtain ⟨l, hl⟩ := slope_in he hw x₁ x₂ y₁ y₂ hne (by
      rintro rfl
      rw [← e₂] at e₁
      exact sq_eq_sq_iff_eq_or_eq_neg.mp (mul_left_cancel₀ he e₁))
    rw [Affine.Point.add_some hne]
    refine inT_some hw (x := e * l ^ 2 - 486662 - x₁ - x₂) (y := -(l * (e * l ^ 2 - 486662 - x₁ - x₂ - x₁) + y₁)) ?_ ?_
    · rw [hl, addX_eq, mul_pow, hw]
      simp only [map_sub, map_mul, map_pow, map_ofNat]
    · rw [Affine.addY, negY_eq, Affine.negAddY, hl, addX_eq, mul_pow, hw]
      simp only [map_sub, map_mul, map_pow, map_ofNat, map_neg, map_add]
      ring

theorem inT_neg {w : K} {e : F} {P : (curve (486662 : K)).Point} (hP : inT w e P) : inT w e (-P) := by
  rcases hP with rfl | ⟨x, y, e₁, h, rfl⟩
  · left; exact neg_zero
  · right
    refine ⟨x, -y, by rw [neg_sq]; exact e₁, ?_⟩
    have h' : (curve (486662 : K)).negY (ι x) (w * ι y) = w * ι (-y) := by rw [negY_eq, map_neg, mul_neg]
    rw [Affine.Point.neg_some]
    rw [← h']
    exact ⟨_, rfl⟩

/-- The subgroup. -/
def T {w : K} {e : F} (he : e ≠ 0) (hw : w ^ 2 = ι e) : AddSubgroup (curve (486662 : K)).Point where
  carrier := {P | inT w e P}
  zero_mem' := Or.inl rfl
  add_mem' := inT_add he hw
  neg_mem' := inT_neg

/-- The elements of the subgroup are infinity and the solutions. -/
noncomputable def equivT {w : K} {e : F} (he : e ≠ 0) (hw : w ^ 2 = ι e) : Option (Sol e) ≃ T he hw :=
  Equiv.ofBijective
    (fun o => match o with
      | none => ⟨0, Or.inl rfl⟩
      | some q => ⟨pt hw q, Or.inr ⟨q.1.1, q.1.2, q.2, _, rfl⟩⟩)
    (by
      have hw0 : w ≠ 0 := by
        rintro rfl
        rw [zero_pow two_ne_zero] at hw
        exact he ((map_eq_zero (ι)).mp hw.symm)
      constructor
      · intro a b h
        have h' := congrArg Subtype.val h
        match a, b, h' with
        | none, none, _ => rfl
        | none, some q, h' => exact absurd h'.symm (Affine.Point.some_ne_zero _)
        | some q, none, h' => exact absurd h' (Affine.Point.some_ne_zero _)
        | some q, some r, h' =>
          simp only [pt, Affine.Point.some.injEq] at h'
          refine congrArg some (Subtype.ext (Prod.ext ((ι).injective h'.1) ((ι).injective (mul_left_cancel₀ hw0 h'.2))))
      · rintro ⟨P, hP⟩
        rcases hP with rfl | ⟨x, y, e₁, h, rfl⟩
        · exact ⟨none, rfl⟩
        · exact ⟨some ⟨(x, y), e₁⟩, rfl⟩)

theorem card_T {w : K} {e : F} (he : e ≠ 0) (hw : w ^ 2 = ι e) : Nat.card (T he hw) = Nat.card (Sol e) + 1 := by
  rw [← Nat.card_congr (equivT he hw), Finite.card_option]

end

theorem char_ne : ringChar F ≠ 2 := by
  rw [ZMod.ringChar_zmod_n]
  norm_num [p25519]

theorem card_sol (e : F) : Nat.card (Sol e) = ∑ x : F, Nat.card { y : F // e * y ^ 2 = rhs x } := by
  have : Sol e ≃ Σ x : F, { y : F // e * y ^ 2 = rhs x } :=
    { toFun := fun q => ⟨q.1.1, q.1.2, q.2⟩
      invFun := fun s => ⟨(s.1, s.2.1), s.2.2⟩
      left_inv := fun _ => rfl
      right_inv := fun _ => rfl }
  rw [Nat.card_congr this, Nat.card_sigma]

theorem card_root (e x : F) (he : e ≠ 0) :
    (Nat.card { y : F // e * y ^ 2 = rhs x } : Int) = quadraticChar F e * quadraticChar F (rhs x) + 1 := by
  have h1 := quadraticChar_card_sqrts char_ne (rhs x / e)
  have h2 : quadraticChar F (rhs x / e) = quadraticChar F e * quadraticChar F (rhs x) := by
    have : rhs x / e = e * rhs x * (1 / e) ^ 2 := by field_simp
    rw [this, map_mul, map_mul, map_pow, quadraticChar_sq_one (one_div_ne_zero he), mul_one]
  rw [← h2, ← h1, Nat.card_eq_fintype_card, Set.toFinset_card]
  refine congrArg (Nat.cast : Nat → Int) ?_
  refine Fintype.card_congr (Equiv.subtypeEquivRight fun y => ?_)
  rw [Set.mem_ofPred_eq, eq_div_iff he, mul_comm]

/-- Together the curve and the twist have two points for every element of `F`. -/
theorem card_sum (e : F) (he : ¬ IsSquare e) : Nat.card (Sol 1) + Nat.card (Sol e) = 2 * p25519 := by
  have he0 : e ≠ 0 := by rintro rfl; exact he (IsSquare.zero)
  have h : ∀ x : F, Nat.card { y : F // 1 * y ^ 2 = rhs x } + Nat.card { y : F // e * y ^ 2 = rhs x } = 2 := by
    intro x
    have h1 := card_root 1 x one_ne_zero
    have h2 := card_root e x he0
    rw [map_one, one_mul] at h1
    rw [quadraticChar_neg_one_iff_not_isSquare.mpr he] at h2
    omega
  rw [card_sol, card_sol, ← Finset.sum_add_distrib, Finset.sum_congr rfl (fun x _ => h x), Finset.sum_const, Finset.card_univ,
    ZMod.card, smul_eq_mul, mul_comm]

/-- A point of prime order and one of order 8. -/
theorem dvd_card {G : Type*} [AddCommGroup G] [Finite G] {q : Nat} (hq : q.Prime) (hq2 : q ≠ 2) {P R : G} (hP : q • P = 0) (hP0 : P ≠ 0)
    (hR : 8 • R = 0) (hR4 : 4 • R ≠ 0) : 8 * q ∣ Nat.card G := by
  have h1 : addOrderOf P = q := by
    have : Fact q.Prime := ⟨hq⟩
    exact addOrderOf_eq_prime hP hP0
  have h2 : addOrderOf R = 8 := by
    have : Fact (Nat.Prime 2) := ⟨Nat.prime_two⟩
    exact addOrderOf_eq_prime_pow (p := 2) (n := 2) (by simpa using hR4) (by simpa using hR)
  refine Nat.Coprime.mul_dvd_of_dvd_of_dvd ?_ (h2 ▸ addOrderOf_dvd_natCard R) (h1 ▸ addOrderOf_dvd_natCard P)
  rw [show 8 = 2 ^ 3 by norm_num]
  exact Nat.Coprime.pow_left _ ((Nat.coprime_primes Nat.prime_two hq).mpr (Ne.symm hq2))

end CryptoPure.MontOrder
