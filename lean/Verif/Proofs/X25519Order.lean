import Verif.Proofs.MontOrder
import Verif.Proofs.PrimeL
import Verif.Proofs.EdTables
import Verif.Props.X25519

/-! # Orders of the points used by X25519

`#E(F) = 8 L`, and the twist has `4 L'` points, with `L` and `L'` prime. -/

namespace CryptoPure.MontOrder
open WeierstrassCurve Montgomery Spec Spec.X25519 CryptoPure.Ladder
open Spec.Ed25519 (L)

/-- A quarter of the number of points of the twist. -/
def L' : Nat := 14474011154664524427946373126085988481603263447650325797860494125407373907997

theorem prime_L : L.Prime := by rw [Spec.Ed25519.L_val]; exact Prime.prime_7237005577332262213973186563042994240857116359379907606001950938285454250989
theorem prime_L' : L'.Prime := Prime.prime_14474011154664524427946373126085988481603263447650325797860494125407373907997

/-! ## The base point -/

section
open Edwards Ed

theorem B_y : 5 * Spec.Ed25519.B.2 = 4 := by
  have h : ((5 * 46316835694926478169428394003475163141307993866256225615783033603165251855960 : Nat) : F) = ((4 : Nat) : F) :=
    cast_lit (by decide +kernel)
  push_cast at h
  exact h

theorem B_y_ne : Spec.Ed25519.B.2 ≠ 1 := by
  intro h
  have := B_y
  rw [h] at this
  refine one_ne_zero (α := F) ?_
  linear_combination this

theorem B_u : (1 + Spec.Ed25519.B.2) / (1 - Spec.Ed25519.B.2) = 9 := by
  rw [div_eq_iff (sub_ne_zero.mpr B_y_ne.symm)]
  linear_combination 2 * B_y

theorem to_curve {A : F} (h : -c ^ 2 - 2 = A) : ∃ f : Pt25519 → (curve A).Point, (∀ P Q, f (P + Q) = f P + f Q) ∧ f 0 = 0 ∧
    x0 (f G) = 9 := by
  subst h
  refine ⟨fun P => phi hyp ⟨P.1, onCurve_iff.mp P.2⟩, ?_, ?_, ?_⟩
  · intro P Q
    have : (⟨(P + Q).1, onCurve_iff.mp (P + Q).2⟩ : Edwards.Pt c) =
        addPt hyp ⟨P.1, onCurve_iff.mp P.2⟩ ⟨Q.1, onCurve_iff.mp Q.2⟩ := Subtype.ext (add_eq P.1 Q.1)
    exact (congrArg (phi hyp) this).trans (phi_add hyp _ _)
  · exact phi_zero hyp _ rfl
  · have h0 : ¬ (G.1.1 = 0 ∧ G.1.2 = 1) := fun h => B_y_ne h.2
    simp only [phi]
    rw [dif_neg h0]
    exact B_u

theorem ladder_L : ladder L 9 = 0 := by
  obtain ⟨f, h1, h2, h3⟩ := to_curve (A := 486662) (by rw [c_sq]; norm_num)
  have h4 : ∀ n : Nat, f (n • G) = n • f G := by
    intro n
    induction n with
    | zero => rw [zero_nsmul, zero_nsmul, h2]
    | succ n ih => rw [succ_nsmul, succ_nsmul, h1, ih]
  have := ladder_spec (K := F) (k := L) (by norm_num [L]) 9 (f G) h3
  rw [← h4, order_G, h2] at this
  exact this

end

section
set_option linter.unusedSectionVars false
variable {K : Type*} [Field K] [DecidableEq K] [Algebra F K]

/-- A point with x-coordinate 0 is killed by 2. -/
theorem two_smul_of_x0 {P : (curve (486662 : K)).Point} (h : x0 P = 0) : (2 : Nat) • P = 0 := by
  match P, h with
  | .zero, _ => exact smul_zero 2
  | .some x y hn, h =>
    have hx : x = 0 := h
    subst hx
    have he := equation_iff.mp hn.1
    have hy : y = 0 := by
      have : y ^ 2 = 0 := by rw [he]; ring
      exact pow_eq_zero_iff (two_ne_zero) |>.mp this
    rw [two_smul]
    exact Affine.Point.add_self_of_Y_eq (by rw [negY_eq, hy, neg_zero])

theorem order_nine {P : (curve (486662 : K)).Point} (h : x0 P = 9) : (2 * L) • P = 0 := by
  have := ladder_spec (K := K) (k := L) (by norm_num [L]) 9 P (by rw [h, map_ofNat])
  rw [ladder_L, map_zero] at this
  rw [mul_smul]
  exact two_smul_of_x0 this.symm

theorem dbl_ne {q : Int × Int} {Q : (curve (486662 : K)).Point} (h : Rep (algebraMap F K q.1) (algebraMap F K q.2) Q)
    (hz : ((q.2 : Int) : F) ≠ 0) : Q ≠ 0 := by
  rintro rfl
  exact (map_ne_zero (algebraMap F K)).mpr hz h.2

theorem int_ne {z : Int} (h : z % p25519 ≠ 0) : ((z : Int) : F) ≠ 0 := by
  intro h'
  rw [ZMod.intCast_zmod_eq_zero_iff_dvd] at h'
  exact h (Int.emod_eq_zero_of_dvd h')

theorem one_sq : (1 : K) ^ 2 = algebraMap F K 1 := by rw [map_one, one_pow]

/-- Nonsquares, by Euler's criterion. -/
theorem nonsq {a : Nat} (h0 : 0 < a) (ha : a < p25519) (h : Prime.powMod p25519 256 a (p25519 / 2) 1 = p25519 - 1) :
    ¬ IsSquare ((a : Nat) : F) := by
  intro hs
  rw [ZMod.euler_criterion p25519 (nat_ne_zero h0 ha)] at hs
  have h1 := Ed.pow_cast a (p25519 / 2) (p25519 - 1) (by norm_num [p25519]) h
  rw [hs, Nat.cast_sub (by norm_num [p25519]), ZMod.natCast_self] at h1
  refine two_ne ?_
  push_cast at h1
  linear_combination h1

theorem two_nonsq : ¬ IsSquare (2 : F) := by
  have := nonsq (a := 2) (by norm_num) (by norm_num [p25519]) (by rw [Model.Fe.p25519_eq]; decide +kernel)
  exact_mod_cast this

/-- The u-coordinate of a point of order 8 and a square root of the right-hand side there. -/
def u8 : Nat := 325606250916557431795983626356110631294008115727848805560023387167927233504
/-- See `u8`. -/
def v8 : Nat := 32026303591712962751241307547882981359278212717910236697706316503764922500307

theorem v8_sq : (1 : F) * ((v8 : Nat) : F) ^ 2 = rhs ((u8 : Nat) : F) := by
  have h : ((v8 ^ 2 : Nat) : F) = ((u8 ^ 3 + 486662 * u8 ^ 2 + u8 : Nat) : F) := Ed.cast_lit (by decide +kernel)
  push_cast at h
  rw [rhs, one_mul]
  exact h

theorem v9_sq : (1 : F) * 14781619447589544791020593568409986887264606134616475288964881837755586237401 ^ 2 = rhs 9 := by
  rw [one_mul, rhs, Props.X25519.base_point]

/-- The curve over `F` has `8 L` points. -/
theorem card_T1 : Nat.card (T (K := K) one_ne_zero one_sq) = 8 * L := by
  have hfin : Finite (T (K := K) one_ne_zero one_sq) := Finite.of_equiv _ (equivT one_ne_zero one_sq)
  -- the base point
  let P : (curve (486662 : K)).Point := pt one_sq ⟨(9, _), v9_sq⟩
  have hP : P ∈ T (K := K) one_ne_zero one_sq := Or.inr ⟨9, _, v9_sq, _, rfl⟩
  have rP : Rep (algebraMap F K ((9 : Int), (1 : Int)).1) (algebraMap F K ((9 : Int), (1 : Int)).2) P :=
    ⟨by simp, by simp⟩
  have oP : (2 * L) • P = 0 := order_nine (by simp only [P, pt, x0, map_ofNat])
  have nP : (2 : Nat) • P ≠ 0 := by
    rw [two_smul]
    refine dbl_ne (Props.X25519.dblI_rep rP) (int_ne ?_)
    unfold Props.X25519.dblI
    rw [Model.Fe.p25519_eq]
    decide +kernel
  -- the point of order 8
  let R : (curve (486662 : K)).Point := pt one_sq ⟨(((u8 : Nat) : F), ((v8 : Nat) : F)), v8_sq⟩
  have hR : R ∈ T (K := K) one_ne_zero one_sq := Or.inr ⟨_, _, v8_sq, _, rfl⟩
  have rR : Rep (algebraMap F K (((u8 : Nat) : Int), (1 : Int)).1) (algebraMap F K (((u8 : Nat) : Int), (1 : Int)).2) R :=
    ⟨by simp, by simp⟩
  have r4 := Props.X25519.dblI_rep (Props.X25519.dblI_rep rR)
  have e4 : (4 : Nat) • R = R + R + (R + R) := by
    rw [show (4 : Nat) = 2 * 2 by norm_num, mul_smul, two_smul, two_smul]
  have r8 := Props.X25519.dblI_rep r4
  rw [← e4] at r4
  have e8 : (8 : Nat) • R = R + R + (R + R) + (R + R + (R + R)) := by
    rw [← e4, ← two_smul Nat, ← mul_smul]
    rfl
  rw [← e8] at r8
  have n4 : (4 : Nat) • R ≠ 0 := by
    refine dbl_ne r4 (int_ne ?_)
    unfold Props.X25519.dblI
    rw [Model.Fe.p25519_eq]
    decide +kernel
  have o8 : (8 : Nat) • R = 0 := by
    have hc := List.all_eq_true.mp Props.X25519.small_dbl u8 (by decide +kernel)
    simp only [beq_iff_eq] at hc
    rw [hc] at r8
    revert r8
    cases (8 : Nat) • R with
    | zero => intro _; rfl
    | some x y hn => intro r3; exact absurd (by simp) r3.1
  have hd : 8 * L ∣ Nat.card (T (K := K) one_ne_zero one_sq) :=
    dvd_card prime_L (by norm_num [L]) (P := ⟨(2 : Nat) • P, AddSubgroup.nsmul_mem _ hP 2⟩) (R := ⟨R, hR⟩)
      (Subtype.ext (by
        change L • ((2 : Nat) • P) = 0
        rw [← mul_smul, mul_comm]; exact oP))
      (fun h => nP (congrArg Subtype.val h)) (Subtype.ext o8) (fun h => n4 (congrArg Subtype.val h))
  have hs := card_sum 2 two_nonsq
  have hc := card_T (K := K) one_ne_zero one_sq
  obtain ⟨n, hn⟩ := hd
  have hp : p25519 = 2 ^ 255 - 19 := rfl
  have hL : L = 2 ^ 252 + 27742317777372353535851937790883648493 := rfl
  have hn1 : n = 1 := by
    have : n < 2 := by
      by_contra h
      have : 8 * L * 2 ≤ 8 * L * n := Nat.mul_le_mul_left _ (by omega)
      omega
    have : n ≠ 0 := by
      rintro rfl
      omega
    omega
  rw [hn, hn1, mul_one]

theorem card_sol1 : Nat.card (Sol 1) + 1 = 8 * L := by
  classical
  rw [← card_T (K := AlgebraicClosure F) one_ne_zero one_sq, card_T1]

/-- The twist has `4 L'` points. -/
theorem card_T2 {w : K} (hw : w ^ 2 = algebraMap F K 2) : Nat.card (T two_ne hw) = 4 * L' := by
  have hs := card_sum 2 two_nonsq
  have h1 := card_sol1
  rw [card_T two_ne hw]
  have hp : p25519 = 2 ^ 255 - 19 := rfl
  have hL : L = 2 ^ 252 + 27742317777372353535851937790883648493 := rfl
  have hL' : L' = 14474011154664524427946373126085988481603263447650325797860494125407373907997 := rfl
  omega

theorem smul_card {w : K} {e : F} (he : e ≠ 0) (hw : w ^ 2 = algebraMap F K e) {P : (curve (486662 : K)).Point} (hP : P ∈ T he hw) :
    Nat.card (T he hw) • P = 0 := by
  have := card_nsmul_eq_zero' (x := (⟨P, hP⟩ : T he hw))
  exact congrArg Subtype.val this

/-- Points over `F` are killed by `8 L`, those of the twist by `4 L'`. -/
theorem killed_cases [IsAlgClosed K] {u : F} {P : (curve (486662 : K)).Point} (hP : x0 P = algebraMap F K u) :
    (IsSquare (rhs u) → (8 * L) • P = 0) ∧ (¬ IsSquare (rhs u) → (4 * L') • P = 0) := by
  match P, hP with
  | .zero, _ => exact ⟨fun _ => smul_zero _, fun _ => smul_zero _⟩
  | .some x y hn, hP =>
    have hx : x = algebraMap F K u := hP
    subst hx
    have he : y ^ 2 = algebraMap F K (rhs u) := by
      rw [equation_iff.mp hn.1, rhs, map_add, map_add, map_mul, map_pow, map_pow, map_ofNat]
    constructor
    · intro hs
      obtain ⟨r, hr⟩ := hs
      rw [hr, map_mul, ← sq] at he
      rw [← card_T1 (K := K)]
      apply smul_card
      rcases sq_eq_sq_iff_eq_or_eq_neg.mp he with h | h
      · exact inT_some one_sq (x := u) (y := r) rfl (by rw [h, one_mul])
      · exact inT_some one_sq (x := u) (y := -r) rfl (by rw [h, one_mul, map_neg])
    · intro hs
      have hq : IsSquare (rhs u * 2) := by
        have h0 : rhs u ≠ 0 := by intro h; exact hs (h ▸ IsSquare.zero)
        rw [← quadraticChar_one_iff_isSquare (mul_ne_zero h0 two_ne), map_mul, quadraticChar_neg_one_iff_not_isSquare.mpr hs,
          quadraticChar_neg_one_iff_not_isSquare.mpr two_nonsq]
        norm_num
      obtain ⟨r, hr⟩ := hq
      obtain ⟨w, hw⟩ := IsAlgClosed.exists_pow_nat_eq (algebraMap F K 2) (n := 2) (by norm_num)
      have hr2 : rhs u = 2 * (r / 2) ^ 2 := by
        have := two_ne
        field_simp
        linear_combination hr
      rw [hr2, map_mul, map_pow, ← hw, ← mul_pow] at he
      rw [← card_T2 (K := K) hw]
      apply smul_card
      rcases sq_eq_sq_iff_eq_or_eq_neg.mp he with h | h
      · exact inT_some hw (x := u) (y := r / 2) rfl h
      · exact inT_some hw (x := u) (y := -(r / 2)) rfl (by rw [h, map_neg, mul_neg])

/-- Every point whose u-coordinate is in `F` is killed by `8 L` or by `4 L'`. -/
theorem killed [IsAlgClosed K] {u : F} {P : (curve (486662 : K)).Point} (hP : x0 P = algebraMap F K u) :
    (8 * L) • P = 0 ∨ (4 * L') • P = 0 := by
  by_cases hs : IsSquare (rhs u)
  · exact Or.inl ((killed_cases hP).1 hs)
  · exact Or.inr ((killed_cases hP).2 hs)

theorem smul_gcd {G : Type*} [AddCommGroup G] {P : G} {a b : Nat} (ha : a • P = 0) (hb : b • P = 0) : Nat.gcd a b • P = 0 := by
  rw [← addOrderOf_dvd_iff_nsmul_eq_zero] at *
  exact Nat.dvd_gcd ha hb

/-- A clamped scalar multiple has u-coordinate 0 only if the point is killed by 8. -/
theorem eight_of_zero [IsAlgClosed K] {u : F} {P : (curve (486662 : K)).Point} (hP : x0 P = algebraMap F K u) {t : Nat} (h0 : 0 < t)
    (ht : t < 2 ^ 252) (hz : x0 ((8 * t) • P) = 0) : (8 : Nat) • P = 0 := by
  have hz2 := two_smul_of_x0 hz
  rw [← mul_smul] at hz2
  have hL : L = 2 ^ 252 + 27742317777372353535851937790883648493 := rfl
  have hL' : L' = 14474011154664524427946373126085988481603263447650325797860494125407373907997 := rfl
  rcases killed hP with h | h
  · have := smul_gcd hz2 h
    have hg : Nat.gcd (2 * (8 * t)) (8 * L) = 8 := by
      rw [show 2 * (8 * t) = 8 * (2 * t) by ring, Nat.gcd_mul_left]
      have : Nat.Coprime (2 * t) L := by
        refine Nat.Coprime.mul_left ?_ ?_
        · exact (Nat.coprime_primes Nat.prime_two prime_L).mpr (by norm_num [L])
        · exact ((Nat.Prime.coprime_iff_not_dvd prime_L).mpr (fun h => absurd (Nat.le_of_dvd h0 h) (by omega))).symm
      rw [this, mul_one]
    rwa [hg] at this
  · have := smul_gcd hz2 h
    have hg : Nat.gcd (2 * (8 * t)) (4 * L') = 4 := by
      rw [show 2 * (8 * t) = 4 * (4 * t) by ring, Nat.gcd_mul_left]
      have : Nat.Coprime (4 * t) L' := by
        refine Nat.Coprime.mul_left ?_ ?_
        · rw [show 4 = 2 ^ 2 by norm_num]
          exact Nat.Coprime.pow_left _ ((Nat.coprime_primes Nat.prime_two prime_L').mpr (by norm_num [L']))
        · exact ((Nat.Prime.coprime_iff_not_dvd prime_L').mpr (fun h => absurd (Nat.le_of_dvd h0 h) (by omega))).symm
      rw [this, mul_one]
    rw [hg] at this
    rw [show 8 = 2 * 4 by norm_num, mul_smul, this, smul_zero]

/-! ## The points killed by 8 -/

theorem rep_of_x0 {u : F} {P : (curve (486662 : K)).Point} (h0 : P ≠ 0) (h : x0 P = algebraMap F K u) :
    Rep (algebraMap F K u) 1 P := by
  match P, h0, h with
  | .zero, h0, _ => exact absurd rfl h0
  | .some x y hn, _, h => exact ⟨one_ne_zero, by rw [mul_one]; exact h.symm⟩

theorem x0_of_rep {u z : F} {P : (curve (486662 : K)).Point} (h : Rep (algebraMap F K u) (algebraMap F K z) P) :
    x0 P = algebraMap F K (u * z⁻¹) := by
  rw [← rep_x0 h, map_mul, map_inv₀]

/-- Doubling of the u-coordinate. -/
theorem rep_two {u : F} {P : (curve (486662 : K)).Point} (h0 : P ≠ 0) (h : x0 P = algebraMap F K u) :
    Rep (algebraMap F K ((u ^ 2 - 1) ^ 2)) (algebraMap F K (4 * rhs u)) ((2 : Nat) • P) := by
  have := rep_dbl two_ne' A_ne' (rep_of_x0 h0 h)
  rw [two_smul]
  convert this using 1
  · simp only [map_sub, map_pow, map_one]; ring
  · simp only [rhs, map_mul, map_add, map_pow, map_ofNat]; ring

theorem quad_nonroot (x : F) : x ^ 2 + 486662 * x + 1 ≠ 0 := by
  intro h
  have := nonsq (a := 486662 ^ 2 - 4) (by norm_num) (by norm_num [p25519]) (by rw [Model.Fe.p25519_eq]; decide +kernel)
  refine this ⟨2 * x + 486662, ?_⟩
  rw [Nat.cast_sub (by norm_num)]
  push_cast
  linear_combination -4 * h

theorem killed2 {u : F} {P : (curve (486662 : K)).Point} (h0 : P ≠ 0) (h : x0 P = algebraMap F K u) (h2 : (2 : Nat) • P = 0) : u = 0 := by
  have hr := rep_two h0 h
  rw [h2] at hr
  have hz : (4 : F) * rhs u = 0 := (map_eq_zero (algebraMap F K)).mp hr.2
  have h4 : (4 : F) ≠ 0 := by
    have := mul_ne_zero two_ne two_ne
    intro h; apply this; linear_combination h
  have h3 : u * (u ^ 2 + 486662 * u + 1) = 0 := by
    have := (mul_eq_zero.mp hz).resolve_left h4
    rw [rhs] at this
    linear_combination this
  exact (mul_eq_zero.mp h3).resolve_right (quad_nonroot u)

theorem half_zero {u : F} {P : (curve (486662 : K)).Point} (h0 : P ≠ 0) (h : x0 P = algebraMap F K u) (h2 : (2 : Nat) • P ≠ 0)
    (hx : x0 ((2 : Nat) • P) = 0) : u = 1 ∨ u = -1 := by
  have hr := rep_two h0 h
  have h1 := rep_of_x0 h2 (u := 0) (by rw [hx, map_zero])
  revert hr h1 h2
  cases hQ : (2 : Nat) • P with
  | zero => intro h2; exact absurd rfl h2
  | some x y hn =>
    intro _ hr h1
    have hx0 : x = 0 := by rw [hQ] at hx; exact hx
    have : algebraMap F K ((u ^ 2 - 1) ^ 2) = 0 := by rw [hr.2, hx0, zero_mul]
    have h3 : (u ^ 2 - 1) ^ 2 = 0 := (map_eq_zero (algebraMap F K)).mp this
    have h4 : (u - 1) * (u + 1) = 0 := by
      have := pow_eq_zero_iff (two_ne_zero) |>.mp h3
      linear_combination this
    rcases mul_eq_zero.mp h4 with h | h
    · left; linear_combination h
    · right; linear_combination h

theorem half_gen {u v : F} {P : (curve (486662 : K)).Point} (h0 : P ≠ 0) (h : x0 P = algebraMap F K u) (h2 : (2 : Nat) • P ≠ 0)
    (hx : x0 ((2 : Nat) • P) = algebraMap F K v) : (u ^ 2 - 1) ^ 2 = v * (4 * rhs u) := by
  have hr := rep_two h0 h
  revert hr h2 hx
  cases hQ : (2 : Nat) • P with
  | zero => intro h2; exact absurd rfl h2
  | some x y hn =>
    intro _ hx hr
    have hx0 : x = algebraMap F K v := hx
    apply (algebraMap F K).injective
    rw [hr.2, hx0, ← map_mul]

/-- The sum and product of the two order-8 u-coordinates, and of the two other roots of the doubling equation. -/
def s1 : Nat := 39707963486406172013519044407909131743823919835168546982442909241131372939327
/-- See `s1`. -/
def s2 : Nat := 18188081132251925698266448096434822182811072497651735037285882762825191880626
/-- The other u-coordinate of order 8. -/
def u8' : Nat := 39382357235489614581723060781553021112529911719440698176882885853963445705823

theorem half_one {u : F} (h : (u ^ 2 - 1) ^ 2 = 1 * (4 * rhs u)) : u = ((u8 : Nat) : F) ∨ u = ((u8' : Nat) : F) := by
  have a1 : ((s1 + s2 : Nat) : F) = ((4 : Nat) : F) := Ed.cast_lit (by decide +kernel)
  have a2 : ((s1 * s2 + 4 * 486662 + 4 : Nat) : F) = ((0 : Nat) : F) := Ed.cast_lit (by decide +kernel)
  have a3 : ((u8 + u8' : Nat) : F) = ((s1 : Nat) : F) := Ed.cast_lit (by decide +kernel)
  have a4 : ((u8 * u8' : Nat) : F) = ((1 : Nat) : F) := Ed.cast_lit (by decide +kernel)
  have hns := nonsq (a := 14856279910349605081280299881395334804609297657786658129414739047344204649203)
    (by norm_num) (by norm_num [p25519]) (by rw [Model.Fe.p25519_eq]; decide +kernel)
  have a5 : ((s2 ^ 2 : Nat) : F) = ((14856279910349605081280299881395334804609297657786658129414739047344204649203 + 4 : Nat) : F) := Ed.cast_lit (by decide +kernel)
  push_cast at a1 a2 a3 a4 a5 hns
  rw [rhs] at h
  have hf : (u ^ 2 - (s1 : F) * u + 1) * (u ^ 2 - (s2 : F) * u + 1) = 0 := by
    linear_combination h - (u ^ 3 + u) * a1 + u ^ 2 * a2
  rcases mul_eq_zero.mp hf with h1 | h1
  · have : (u - (u8 : F)) * (u - (u8' : F)) = 0 := by linear_combination h1 - u * a3 + a4
    rcases mul_eq_zero.mp this with h | h
    · left; linear_combination h
    · right; linear_combination h
  · exfalso
    refine hns ⟨2 * u - (s2 : F), ?_⟩
    linear_combination -4 * h1 - a5

theorem half_neg_one {u : F} (h : (u ^ 2 - 1) ^ 2 = -1 * (4 * rhs u)) : False := by
  rw [rhs] at h
  have hns := nonsq (a := p25519 - 486660) (by norm_num [p25519]) (by norm_num [p25519]) (by rw [Model.Fe.p25519_eq]; decide +kernel)
  rw [Nat.cast_sub (by norm_num [p25519]), ZMod.natCast_self] at hns
  have hu : u ≠ 0 := by
    rintro rfl
    refine one_ne_zero (α := F) ?_
    linear_combination h
  refine hns ⟨(u ^ 2 + 2 * u + 1) / (2 * u), ?_⟩
  have := two_ne
  field_simp
  push_cast
  linear_combination -h

theorem killed8 {u : F} {P : (curve (486662 : K)).Point} (h0 : P ≠ 0) (h : x0 P = algebraMap F K u) (h8 : (8 : Nat) • P = 0) :
    u = 0 ∨ u = 1 ∨ u = -1 ∨ u = ((u8 : Nat) : F) ∨ u = ((u8' : Nat) : F) := by
  have e4 : (2 : Nat) • (2 : Nat) • P = (4 : Nat) • P := (mul_smul 2 2 P).symm
  have e8 : (2 : Nat) • (4 : Nat) • P = (8 : Nat) • P := (mul_smul 2 4 P).symm
  by_cases h2 : (2 : Nat) • P = 0
  · exact Or.inl (killed2 h0 h h2)
  have x2 := x0_of_rep (rep_two h0 h)
  by_cases h4 : (4 : Nat) • P = 0
  · rw [← e4] at h4
    have := killed2 h2 x2 h4
    rw [this, map_zero] at x2
    rcases half_zero h0 h h2 x2 with h | h
    · exact Or.inr (Or.inl h)
    · exact Or.inr (Or.inr (Or.inl h))
  · have x4 := x0_of_rep (rep_two h2 x2)
    rw [e4] at x4
    rw [← e8] at h8
    have hz := killed2 h4 x4 h8
    rw [hz, map_zero] at x4
    rw [← e4] at x4 h4
    rcases half_zero h2 x2 h4 x4 with hq | hq <;> rw [hq] at x2
    · exact Or.inr (Or.inr (Or.inr (half_one (half_gen h0 h h2 x2))))
    · exact (half_neg_one (half_gen h0 h h2 x2)).elim

end

end CryptoPure.MontOrder
