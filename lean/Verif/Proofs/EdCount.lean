import Verif.Spec.EdGame
import Verif.Proofs.Prog
import Verif.Proofs.EdSign
import Mathlib.Data.Nat.Cast.Order.Field

/-! # Random digests modulo `L` -/

namespace CryptoPure.EdGame
open Spec.Ed25519

/-- `2 ^ -252`. -/
def tiny : ℚ := 1 / 2 ^ 252

theorem tiny_pos : 0 < tiny := by unfold tiny; positivity

theorem digests_pos : 0 < digests := by unfold digests; positivity

theorem num1 : (digests / L + 1) * 2 ^ 252 ≤ digests := by unfold digests L; decide +kernel
theorem num2 : L * 2 ^ 252 ≤ digests := by unfold digests L; decide +kernel
theorem L_pos' : 0 < L := Ed.L_pos
theorem L_le : L < 256 ^ 32 := by norm_num [L]

theorem leNat_digest (i : Fin digests) : leNat (toLE 64 i) = i := by
  rw [leNat_toLE]
  exact Nat.mod_eq_of_lt i.isLt

attribute [local irreducible] digests L

theorem count_residue (t r : Nat) : (Finset.univ.filter fun i : Fin digests => (i.val + t) % L = r).card ≤ digests / L + 1 := by
  rw [← Finset.card_range (digests / L + 1)]
  refine Finset.card_le_card_of_injOn (fun i => i.val / L) ?_ ?_
  · intro i _
    simp only [Finset.coe_range, Set.mem_Iio]
    exact Nat.lt_succ_of_le (Nat.div_le_div_right i.isLt.le)
  · intro i hi j hj hij
    simp only [Finset.coe_filter, Finset.mem_univ, true_and, Set.mem_ofPred_eq] at hi hj
    have hij : i.val / L = j.val / L := hij
    have h1 : i.val % L = j.val % L := Nat.ModEq.add_right_cancel' t (hi.trans hj.symm)
    ext
    rw [← Nat.div_add_mod i.val L, ← Nat.div_add_mod j.val L, hij, h1]

theorem digest_ex (g : Bytes → ℚ) : digest.ex g = (∑ i : Fin digests, g (toLE 64 i)) / digests := rfl
theorem scalar_ex (g : Nat → ℚ) : scalar.ex g = (∑ i : Fin L, g i) / L := rfl

open Classical in
/-- A given residue is rare. -/
theorem digest_residue (t r : Nat) : (digest.ex fun y => if (leNat y + t) % L = r then 1 else 0) ≤ tiny := by
  rw [digest_ex]
  simp only [leNat_digest]
  rw [Finset.sum_boole, div_le_iff₀ (by exact_mod_cast digests_pos)]
  have h1 := count_residue t r
  have h2 := num1
  have h3 : ((Finset.univ.filter fun i : Fin digests => (i.val + t) % L = r).card : ℚ) * 2 ^ 252 ≤ digests := by
    exact_mod_cast (Nat.mul_le_mul_right _ h1).trans h2
  unfold tiny
  rw [div_mul_eq_mul_div, one_mul, le_div_iff₀ (by positivity)]
  convert h3

/-- A random digest modulo `L` is almost a random number below `L`. -/
theorem digest_bias (t : Nat) (g : Nat → ℚ) (h0 : ∀ r, 0 ≤ g r) (h1 : ∀ r, g r ≤ 1) :
    (digest.ex fun y => g ((leNat y + t) % L)) ≤ scalar.ex g + tiny := by
  classical
  have hD : (0 : ℚ) < digests := by exact_mod_cast digests_pos
  have hL : (0 : ℚ) < L := by exact_mod_cast L_pos'
  rw [digest_ex, scalar_ex]
  simp only [leNat_digest]
  have e1 : ∑ i : Fin digests, g ((i.val + t) % L) =
      ∑ r : Fin L, ((Finset.univ.filter fun i : Fin digests => (i.val + t) % L = r.val).card : ℚ) * g r := by
    rw [← Finset.sum_fiberwise_of_maps_to (s := Finset.univ) (t := Finset.univ)
      (g := fun i : Fin digests => (⟨(i.val + t) % L, Nat.mod_lt _ L_pos'⟩ : Fin L)) (fun _ _ => Finset.mem_univ _)]
    refine Finset.sum_congr rfl fun r _ => ?_
    rw [Finset.sum_congr rfl (g := fun _ => g r.val)]
    · rw [Finset.sum_const, nsmul_eq_mul]
      congr 3
      ext i
      simp only [Finset.mem_filter, Finset.mem_univ, true_and, Fin.ext_iff]
    · intro i hi
      simp only [Finset.mem_filter, Finset.mem_univ, true_and] at hi
      rw [← hi]
  have e2 : ∑ i : Fin digests, g ((i.val + t) % L) ≤ ((digests / L + 1 : Nat) : ℚ) * ∑ r : Fin L, g r := by
    rw [e1, Finset.mul_sum]
    refine Finset.sum_le_sum fun r _ => mul_le_mul_of_nonneg_right ?_ (h0 _)
    exact_mod_cast count_residue t r.val
  have e3 : ∑ r : Fin L, g r ≤ L := by
    calc _ ≤ ∑ _r : Fin L, (1 : ℚ) := Finset.sum_le_sum fun r _ => h1 _
      _ = L := by rw [Finset.sum_const, Finset.card_univ, Fintype.card_fin]; simp
  have e0 : 0 ≤ ∑ r : Fin L, g r := Finset.sum_nonneg fun r _ => h0 _
  have e4 : ((digests / L + 1 : Nat) : ℚ) ≤ digests / L + 1 := by
    push_cast
    exact add_le_add Nat.cast_div_le le_rfl
  have e5 : (L : ℚ) / digests ≤ tiny := by
    unfold tiny
    rw [div_le_div_iff₀ hD (by positivity)]
    have := num2
    rw [one_mul]
    exact_mod_cast this
  generalize (∑ r : Fin L, g r) = s at *
  have : (∑ i : Fin digests, g ((i.val + t) % L)) / digests ≤ (digests / L + 1) * s / digests := by
    refine div_le_div_of_nonneg_right ?_ hD.le
    exact e2.trans (mul_le_mul_of_nonneg_right e4 e0)
  refine this.trans ?_
  have : ((digests : ℚ) / L + 1) * s / digests = s / L + s / digests := by field_simp
  rw [this]
  have : s / digests ≤ L / digests := div_le_div_of_nonneg_right e3 hD.le
  linarith

end CryptoPure.EdGame
