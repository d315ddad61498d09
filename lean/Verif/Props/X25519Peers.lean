import Verif.Props.X25519Order

/-! # C72, C73: when X25519 secrets coincide, for arbitrary public keys

No assumption on the public keys: they may be on the curve or on its twist, of any order, in any encoding. -/

namespace CryptoPure.Props.X25519
open WeierstrassCurve Montgomery Spec Spec.X25519 CryptoPure.Ladder CryptoPure.MontOrder
open Spec.Ed25519 (L)

section
variable {K : Type*} [Field K] [DecidableEq K]

theorem eq_or_neg' {P Q : (curve (486662 : K)).Point} (hP : P ≠ 0) (hQ : Q ≠ 0) (h : x0 P = x0 Q) : P = Q ∨ P = -Q := by
  match P, Q, hP, hQ, h with
  | .zero, _, hP, _, _ => exact absurd rfl hP
  | .some _ _ _, .zero, _, hQ, _ => exact absurd rfl hQ
  | .some x y hn, .some x' y' hn', _, _, h =>
    have hx : x = x' := h
    subst hx
    have e := equation_iff.mp hn.1
    rw [← equation_iff.mp hn'.1] at e
    rcases sq_eq_sq_iff_eq_or_eq_neg.mp e with rfl | rfl
    · exact Or.inl rfl
    · right
      rw [Affine.Point.neg_some]
      simp only [negY_eq]

variable [Algebra F K] [IsAlgClosed K]

theorem lit_L : L = 2 ^ 252 + 27742317777372353535851937790883648493 := rfl
theorem lit_L' : L' = 14474011154664524427946373126085988481603263447650325797860494125407373907997 := rfl

theorem gcd_L {t : Nat} (h0 : 0 < t) (ht : t < 2 ^ 252) : Nat.gcd (8 * t) (8 * L) = 8 := by
  have hL := lit_L
  rw [Nat.gcd_mul_left]
  have : Nat.Coprime t L :=
    ((Nat.Prime.coprime_iff_not_dvd prime_L).mpr (fun h => absurd (Nat.le_of_dvd h0 h) (by omega))).symm
  rw [this, mul_one]

theorem gcd_L' {t : Nat} (h0 : 0 < t) (ht : t < 2 ^ 252) : Nat.gcd (8 * t) (4 * L') = 4 := by
  have hL' := lit_L'
  rw [show 8 * t = 4 * (2 * t) by ring, Nat.gcd_mul_left]
  have : Nat.Coprime (2 * t) L' := by
    refine Nat.Coprime.mul_left ((Nat.coprime_primes Nat.prime_two prime_L').mpr (by norm_num [L'])) ?_
    exact ((Nat.Prime.coprime_iff_not_dvd prime_L').mpr (fun h => absurd (Nat.le_of_dvd h0 h) (by omega))).symm
  rw [this, mul_one]

/-- Cancelling the cofactor-free part of a clamped scalar, in a group element killed by one of the two orders. -/
theorem cancel {G : Type*} [AddCommGroup G] {P : G} {t : Nat} (h0 : 0 < t) (ht : t < 2 ^ 252)
    (hk : (8 * L) • P = 0 ∨ (4 * L') • P = 0) (h : (8 * t) • P = 0) : (8 : Nat) • P = 0 := by
  rcases hk with hk | hk
  · have := smul_gcd h hk
    rwa [gcd_L h0 ht] at this
  · have := smul_gcd h hk
    rw [gcd_L' h0 ht] at this
    rw [show 8 = 2 * 4 by norm_num, mul_smul, this, smul_zero]

theorem cross {G : Type*} [AddCommGroup G] {P P' : G} {t : Nat} (h0 : 0 < t) (ht : t < 2 ^ 252)
    (hk : (8 * L) • P = 0) (hk' : (4 * L') • P' = 0) (h : (8 * t) • P = (8 * t) • P') : (8 * t) • P = 0 := by
  have h1 : (8 * L) • ((8 * t) • P) = 0 := by rw [smul_comm, hk, smul_zero]
  have h2 : (4 * L') • ((8 * t) • P) = 0 := by rw [h, smul_comm, hk', smul_zero]
  have h3 := smul_gcd h1 h2
  have hg : Nat.gcd (8 * L) (4 * L') = 4 := by
    rw [show 8 * L = 4 * (2 * L) by ring, Nat.gcd_mul_left]
    have : Nat.Coprime (2 * L) L' := by
      refine Nat.Coprime.mul_left ((Nat.coprime_primes Nat.prime_two prime_L').mpr (by norm_num [L'])) ?_
      exact (Nat.coprime_primes prime_L prime_L').mpr (by have := lit_L; have := lit_L'; omega)
    rw [this, mul_one]
  rw [hg, ← mul_smul] at h3
  have h4 := smul_gcd h3 hk
  have hL := lit_L
  have hg2 : Nat.gcd (4 * (8 * t)) (8 * L) = 8 := by
    rw [show 4 * (8 * t) = 8 * (4 * t) by ring, Nat.gcd_mul_left]
    have : Nat.Coprime (4 * t) L := by
      refine Nat.Coprime.mul_left ?_ ?_
      · rw [show 4 = 2 ^ 2 by norm_num]
        exact Nat.Coprime.pow_left _ ((Nat.coprime_primes Nat.prime_two prime_L).mpr (by norm_num [L]))
      · exact ((Nat.Prime.coprime_iff_not_dvd prime_L).mpr (fun h => absurd (Nat.le_of_dvd h0 h) (by omega))).symm
    rw [this, mul_one]
  rw [hg2] at h4
  rw [mul_comm, mul_smul, h4, smul_zero]

/-- Equal u-coordinates after a clamped scalar: exactly when the multiples by 8 agree up to sign. -/
theorem peers {u u' : F} {P P' : (curve (486662 : K)).Point} (hP : x0 P = algebraMap F K u) (hP' : x0 P' = algebraMap F K u')
    {t : Nat} (h0 : 0 < t) (ht : t < 2 ^ 252) :
    x0 ((8 * t) • P) = x0 ((8 * t) • P') ↔ (8 : Nat) • P = (8 : Nat) • P' ∨ (8 : Nat) • P = -((8 : Nat) • P') := by
  constructor
  · intro h
    by_cases hz : x0 ((8 * t) • P) = 0
    · left
      rw [eight_of_zero hP h0 ht hz, eight_of_zero hP' h0 ht (h ▸ hz)]
    · have n1 : (8 * t) • P ≠ 0 := fun h => hz (by rw [h]; rfl)
      have n2 : (8 * t) • P' ≠ 0 := fun h' => hz (by rw [h, h']; rfl)
      -- both are killed by the same order
      have key : ∀ Q : (curve (486662 : K)).Point, (8 * t) • P = (8 * t) • Q → ((8 * L) • Q = 0 ∨ (4 * L') • Q = 0) →
          (8 : Nat) • P = (8 : Nat) • Q := by
        intro Q hQ hkQ
        have hsub : (8 * t) • (P - Q) = 0 := by rw [smul_sub, hQ, sub_self]
        have hk : (8 * L) • (P - Q) = 0 ∨ (4 * L') • (P - Q) = 0 := by
          rcases killed hP with h1 | h1 <;> rcases hkQ with h2 | h2
          · left; rw [smul_sub, h1, h2, sub_self]
          · exact absurd (cross h0 ht h1 h2 hQ) n1
          · exact absurd (hQ.trans (cross h0 ht h2 h1 hQ.symm)) n1
          · right; rw [smul_sub, h1, h2, sub_self]
        have := cancel h0 ht hk hsub
        rwa [smul_sub, sub_eq_zero] at this
      rcases eq_or_neg' n1 n2 h with h | h
      · exact Or.inl (key P' h (killed hP'))
      · right
        rw [← smul_neg] at h
        rw [← smul_neg]
        refine key (-P') h ?_
        simpa only [smul_neg, neg_eq_zero] using killed hP'
  · rintro (h | h)
    · rw [mul_comm, mul_smul, mul_smul, h]
    · rw [mul_comm, mul_smul, mul_smul, h, smul_neg, x0_neg]
end

/-! ## C72 -/

/-- C72. Two public keys lead to the same secret exactly when the RFC 7748 ladder with scalar 8 maps them to the same
value; that does not involve the secret key. -/
theorem C72_same_secret_iff (m : Mode) (pk pk' sk : Bytes) (h1 : pk.length = 32) (h1' : pk'.length = 32) (h2 : sk.length = 32) :
    Model.X25519.dh m pk sk = Model.X25519.dh m pk' sk ↔ ladder 8 (decodeU pk) = ladder 8 (decodeU pk') := by
  classical
  rw [(C35_dh_rfc7748 m pk sk h1 h2).1, (C35_dh_rfc7748 m pk' sk h1' h2).1, Option.some_inj, x25519, x25519]
  have e : encodeU (ladder (decodeScalar sk) (decodeU pk)) = encodeU (ladder (decodeScalar sk) (decodeU pk')) ↔
      ladder (decodeScalar sk) (decodeU pk) = ladder (decodeScalar sk) (decodeU pk') := ⟨encodeU_inj, congrArg _⟩
  rw [e]
  obtain ⟨P, -, hP⟩ := C36_every_u_is_a_point (K := AlgebraicClosure F) (decodeU pk)
  obtain ⟨P', -, hP'⟩ := C36_every_u_is_a_point (K := AlgebraicClosure F) (decodeU pk')
  obtain ⟨t, ht, ht1, ht2⟩ := clamped sk
  have inj : ∀ x y : F, x = y ↔ algebraMap F (AlgebraicClosure F) x = algebraMap F (AlgebraicClosure F) y :=
    fun x y => ((algebraMap F (AlgebraicClosure F)).injective.eq_iff).symm
  rw [inj, inj, ladder_spec (decodeScalar_lt sk) _ P hP, ladder_spec (decodeScalar_lt sk) _ P' hP',
    ladder_spec (k := 8) (by norm_num) _ P hP, ladder_spec (k := 8) (by norm_num) _ P' hP', ht,
    peers hP hP' (by omega) ht2]
  exact (peers hP hP' (t := 1) (by norm_num) (by norm_num)).symm

/-- C72. So whether two public keys are interchangeable can be tested with any one secret key. -/
theorem C72_same_secret_independent_of_key (m m' : Mode) (pk pk' sk sk' : Bytes) (h1 : pk.length = 32) (h1' : pk'.length = 32)
    (h2 : sk.length = 32) (h2' : sk'.length = 32)
    (h : Model.X25519.dh m pk sk = Model.X25519.dh m pk' sk) : Model.X25519.dh m' pk sk' = Model.X25519.dh m' pk' sk' := by
  rw [C72_same_secret_iff m' pk pk' sk' h1 h1' h2', ← C72_same_secret_iff m pk pk' sk h1 h1' h2]
  exact h

/-- C72. For instance `u` and `1/u` are interchangeable, for every `u`: no public key other than 0, 1, -1 is the only one
that leads to its secrets. -/
theorem C72_inverse (m : Mode) (pk pk' sk : Bytes) (h1 : pk.length = 32) (h1' : pk'.length = 32) (h2 : sk.length = 32)
    (h : leNat pk % 2 ^ 255 * (leNat pk' % 2 ^ 255) % (2 ^ 255 - 19) = 1) :
    Model.X25519.dh m pk sk = Model.X25519.dh m pk' sk := by
  classical
  have hm : decodeU pk * decodeU pk' = 1 := by
    have := (ZMod.natCast_eq_natCast_iff' (leNat pk % 2 ^ 255 * (leNat pk' % 2 ^ 255)) 1 p25519).mpr (by
      rw [show p25519 = 2 ^ 255 - 19 from rfl, h]; rfl)
    push_cast at this
    exact this
  rw [C72_same_secret_iff m pk pk' sk h1 h1' h2]
  generalize decodeU pk = u at hm ⊢
  generalize decodeU pk' = u' at hm ⊢
  obtain ⟨P, hP0, hP⟩ := C36_every_u_is_a_point (K := AlgebraicClosure F) u
  obtain ⟨P', hP0', hP'⟩ := C36_every_u_is_a_point (K := AlgebraicClosure F) u'
  refine (algebraMap F (AlgebraicClosure F)).injective ?_
  rw [ladder_spec (k := 8) (by norm_num) _ P hP, ladder_spec (k := 8) (by norm_num) _ P' hP']
  have r := rep_two hP0 hP
  have r' := rep_two hP0' hP'
  have hu : u ≠ 0 := left_ne_zero_of_mul_eq_one hm
  have hu' : u' = u⁻¹ := (inv_eq_of_mul_eq_one_right hm).symm
  have hx : x0 ((2 : Nat) • P) = x0 ((2 : Nat) • P') := by
    rw [x0_of_rep r, x0_of_rep r', hu', rhs, rhs]
    congr 1
    have hq := quad_nonroot u
    have hq' : 1 + 486662 * u + u ^ 2 ≠ 0 := by intro h; apply hq; linear_combination h
    have e1 : u ^ 3 + 486662 * u ^ 2 + u = u * (u ^ 2 + 486662 * u + 1) := by ring
    have e2 : u⁻¹ ^ 3 + 486662 * u⁻¹ ^ 2 + u⁻¹ = (u ^ 2 + 486662 * u + 1) * u⁻¹ ^ 3 := by
      field_simp
      ring
    rw [e1, e2]
    generalize u ^ 2 + 486662 * u + 1 = q at hq
    have h4 : (4 : F) ≠ 0 := by
      have := mul_ne_zero two_ne two_ne
      intro h; apply this; linear_combination h
    field_simp
    ring
  by_cases h2 : (2 : Nat) • P = 0
  · have : u = 0 := killed2 hP0 hP h2
    exact absurd this hu
  · have h2' : (2 : Nat) • P' ≠ 0 := fun h => by
      have := killed2 hP0' hP' h
      rw [hu'] at this
      exact hu (inv_eq_zero.mp this)
    rw [show 8 = 4 * 2 by norm_num, mul_smul, mul_smul]
    rcases eq_or_neg' h2 h2' hx with h | h
    · rw [h]
    · rw [h, smul_neg, x0_neg]

/-- The base point 9 and another key, which no clamping or reduction identifies with it, are interchangeable. -/
example (sk : Bytes) (h : sk.length = 32) :
    Model.X25519.dh .release (9 :: zeros 31) sk =
      Model.X25519.dh .release (toLE 32 (32164469232587832062103051391302196625908329073789045566515995557753647122194)) sk :=
  C72_inverse _ _ _ _ (by decide) (by simp) h (by decide +kernel)

/-! ## C73 -/

/-- Multiples of an element of prime order `q` between `2^252` and `2^253`, by scalars in the clamped range. -/
theorem same_multiple {G : Type*} [AddCommGroup G] {Q : G} {q : Nat} (hq : q.Prime) (hq1 : 2 ^ 252 ≤ q) (hQ : q • Q = 0) (hQ0 : Q ≠ 0)
    {s t : Nat} (hs1 : 2 ^ 251 ≤ s) (hs2 : s < 2 ^ 252) (ht1 : 2 ^ 251 ≤ t) (ht2 : t < 2 ^ 252) :
    (s • Q = t • Q ∨ s • Q = -(t • Q)) ↔ s = t ∨ s + t = q := by
  have : Fact q.Prime := ⟨hq⟩
  have ho : addOrderOf Q = q := addOrderOf_eq_prime hQ hQ0
  constructor
  · rintro (h | h)
    · left
      have hd : (q : Int) ∣ s - t := by
        rw [← ho, addOrderOf_dvd_iff_zsmul_eq_zero, sub_smul, natCast_zsmul, natCast_zsmul, h, sub_self]
      have := Int.eq_zero_of_abs_lt_dvd hd (by rw [abs_lt]; constructor <;> omega)
      omega
    · right
      have hd : q ∣ s + t := by
        rw [← ho, addOrderOf_dvd_iff_nsmul_eq_zero, add_smul, h, neg_add_cancel]
      obtain ⟨c, hc⟩ := hd
      have : c = 1 := by
        have h1 : c < 2 := by
          by_contra hc'
          have : q * 2 ≤ q * c := Nat.mul_le_mul_left _ (by omega)
          omega
        have h2 : c ≠ 0 := by rintro rfl; omega
        omega
      rw [hc, this, mul_one]
  · rintro (rfl | h)
    · exact Or.inl rfl
    · right
      rw [eq_neg_iff_add_eq_zero, ← add_smul, h, hQ]

/-- C73. Two secret keys get the same secret from a public key exactly when the public key has small order (then both get
zeros), or the clamped scalars are equal, or they add up to 8 times the large prime factor of the order of the curve the
public key lies on: the curve itself if `u^3 + 486662 u^2 + u` is a square, else the twist. -/
theorem C73_same_secret_iff (m : Mode) (pk a b : Bytes) (h1 : pk.length = 32) (ha : a.length = 32) (hb : b.length = 32) :
    Model.X25519.dh m pk a = Model.X25519.dh m pk b ↔
      Model.X25519.dh m pk a = some (zeros 32) ∨ decodeScalar a = decodeScalar b ∨
      ((∃ v : F, v ^ 2 = decodeU pk ^ 3 + 486662 * decodeU pk ^ 2 + decodeU pk) ∧ decodeScalar a + decodeScalar b = 8 * L) ∨
      ((¬ ∃ v : F, v ^ 2 = decodeU pk ^ 3 + 486662 * decodeU pk ^ 2 + decodeU pk) ∧ decodeScalar a + decodeScalar b = 8 * L') := by
  classical
  by_cases hz : Model.X25519.dh m pk a = some (zeros 32)
  · rw [hz, C54_zero_independent_of_key m pk a b hb hz]
    simp
  have hsq : (∃ v : F, v ^ 2 = decodeU pk ^ 3 + 486662 * decodeU pk ^ 2 + decodeU pk) ↔ IsSquare (rhs (decodeU pk)) := by
    rw [isSquare_iff_exists_sq, rhs]
    exact ⟨fun ⟨v, h⟩ => ⟨v, h.symm⟩, fun ⟨v, h⟩ => ⟨v, h.symm⟩⟩
  rw [hsq]
  simp only [hz, false_or]
  have hzb : Model.X25519.dh m pk b ≠ some (zeros 32) := fun h => hz (C54_zero_independent_of_key m pk b a ha h)
  have nz : ∀ k : Bytes, k.length = 32 → Model.X25519.dh m pk k ≠ some (zeros 32) → ladder (decodeScalar k) (decodeU pk) ≠ 0 := by
    intro k hk h h0
    apply h
    rw [(C35_dh_rfc7748 m pk k h1 hk).1, x25519, h0, encodeU_zero]
  have na := nz a ha hz
  have nb := nz b hb hzb
  rw [(C35_dh_rfc7748 m pk a h1 ha).1, (C35_dh_rfc7748 m pk b h1 hb).1, Option.some_inj, x25519, x25519]
  rw [show encodeU (ladder (decodeScalar a) (decodeU pk)) = encodeU (ladder (decodeScalar b) (decodeU pk)) ↔
      ladder (decodeScalar a) (decodeU pk) = ladder (decodeScalar b) (decodeU pk) from ⟨encodeU_inj, congrArg _⟩]
  clear hz hzb nz hsq
  generalize decodeU pk = u at na nb ⊢
  obtain ⟨P, -, hP⟩ := C36_every_u_is_a_point (K := AlgebraicClosure F) u
  have sa := ladder_spec (decodeScalar_lt a) _ P hP
  have sb := ladder_spec (decodeScalar_lt b) _ P hP
  obtain ⟨s, hs, s1, s2⟩ := clamped a
  obtain ⟨t, ht, t1, t2⟩ := clamped b
  have inj := (algebraMap F (AlgebraicClosure F)).injective
  rw [show (ladder (decodeScalar a) u = ladder (decodeScalar b) u) ↔ _ from inj.eq_iff.symm, sa, sb]
  have na' : x0 ((decodeScalar a) • P) ≠ 0 := by
    rw [← sa]; exact (map_ne_zero _).mpr na
  have nb' : x0 ((decodeScalar b) • P) ≠ 0 := by
    rw [← sb]; exact (map_ne_zero _).mpr nb
  clear sa sb na nb
  rw [hs, ht] at *
  have e : ∀ n : Nat, (8 * n) • P = n • ((8 : Nat) • P) := fun n => by rw [mul_comm, mul_smul]
  rw [e] at na' nb'
  rw [e, e]
  have hQ0 : (8 : Nat) • P ≠ 0 := fun h => na' (by rw [h, smul_zero]; rfl)
  have step : x0 (s • ((8 : Nat) • P)) = x0 (t • ((8 : Nat) • P)) ↔
      (s • ((8 : Nat) • P) = t • ((8 : Nat) • P) ∨ s • ((8 : Nat) • P) = -(t • ((8 : Nat) • P))) := by
    constructor
    · exact eq_or_neg' (fun h => na' (by rw [h]; rfl)) (fun h => nb' (by rw [h]; rfl))
    · rintro (h | h)
      · rw [h]
      · rw [h, x0_neg]
  rw [step]
  have hL := lit_L
  have hL' := lit_L'
  by_cases hc : IsSquare (rhs u)
  · rw [same_multiple prime_L (by omega) (by rw [← mul_smul, mul_comm]; exact (killed_cases hP).1 hc) hQ0 s1 s2 t1 t2]
    simp only [hc, true_and, not_true_eq_false, false_and, or_false]
    omega
  · have h4 := (killed_cases hP).2 hc
    rw [same_multiple prime_L' (by omega) (by
      rw [← mul_smul, show L' * 8 = 2 * (4 * L') by ring, mul_smul, h4, smul_zero]) hQ0 s1 s2 t1 t2]
    simp only [hc, true_and, not_false_eq_true, false_and, false_or]
    omega

/-- The last case occurs: `u = 2` is on the twist. -/
example : ∃ a b : Bytes, a.length = 32 ∧ b.length = 32 ∧ decodeScalar a ≠ decodeScalar b ∧
    Model.X25519.dh .debug (2 :: zeros 31) a = Model.X25519.dh .debug (2 :: zeros 31) b := by
  refine ⟨toLE 32 28948022309329048855892746252171976963317496166410141009864396001978282409976,
    toLE 32 28948022309329048855892746252171976962873619081972183353290764997324144034032, by simp, by simp, by decide +kernel, ?_⟩
  rw [C73_same_secret_iff _ _ _ _ (by decide) (by simp) (by simp)]
  refine Or.inr (Or.inr (Or.inr ⟨?_, by decide +kernel⟩))
  have h2 : decodeU (2 :: zeros 31) = 2 := by
    unfold decodeU
    rw [show leNat (2 :: zeros 31) % 2 ^ 255 = 2 by decide +kernel]
    rfl
  rw [h2]
  rintro ⟨v, hv⟩
  refine nonsq (a := 1946658) (by norm_num) (by norm_num [p25519]) (by rw [Model.Fe.p25519_eq]; decide +kernel) ⟨v, ?_⟩
  rw [← sq, hv]
  norm_num

/-! ## Further concrete cases -/

/-- 9 and its inverse give the same secret for one key, hence for every key and in both builds. -/
example (sk : Bytes) (h : sk.length = 32) :
    Model.X25519.dh .debug (9 :: zeros 31) sk =
      Model.X25519.dh .debug (toLE 32 (32164469232587832062103051391302196625908329073789045566515995557753647122194)) sk :=
  C72_same_secret_independent_of_key .release .debug _ _ (zeros 32) sk (by decide) (by decide +kernel) (by decide) h
    (C72_inverse .release _ _ _ (by decide) (by decide +kernel) (by decide) (by decide +kernel))

example (sk : Bytes) (h : sk.length = 32) :
    Model.X25519.dh .debug (9 :: zeros 31) sk = Model.X25519.dh .debug (10 :: zeros 31) sk ↔
      ladder 8 (decodeU (9 :: zeros 31)) = ladder 8 (decodeU (10 :: zeros 31)) :=
  C72_same_secret_iff .debug _ _ sk (by decide) (by decide) h

end CryptoPure.Props.X25519
