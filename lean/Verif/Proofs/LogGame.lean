import Verif.Spec.LogGame
import Verif.Proofs.EdCount
import Verif.Proofs.EdOrder

/-! # Random self-reduction of the discrete logarithm -/

namespace CryptoPure.LogGame
open Spec.Ed25519 EdGame CryptoPure.Ed Prog

attribute [local irreducible] digests L

theorem chance_nonneg (D : Solver) (A : Point) : 0 ≤ chance D A := pr_nonneg _ _
theorem chance_le_one (D : Solver) (A : Point) : chance D A ≤ 1 := pr_le_one _ _

theorem smul_mod (n : Nat) : smul (n % L) B = smul n B := by
  rw [← coe_smulG, ← coe_smulG, smul_mod_L]

theorem add_smul_B (a r : Nat) : add (smul a B) (smul r B) = smul (a + r) B := by
  rw [← coe_smulG, ← coe_smulG, ← coe_add, ← add_smul, coe_smulG]

theorem smul_B_iff (a b : Nat) : smul a B = smul b B ↔ a % L = b % L := by
  rw [← smulG_eq_iff, ← coe_smulG, ← coe_smulG]
  exact ⟨fun h => Subtype.ext h, fun h => by rw [h]⟩

theorem shift_iff (a r z : Nat) (hr : r < L) : smul ((z + (L - r)) % L) B = smul a B ↔ smul z B = smul (a + r) B := by
  rw [smul_B_iff, smul_B_iff, Nat.mod_mod]
  constructor
  · intro h
    have := Nat.ModEq.add_right r (show (z + (L - r)) ≡ a [MOD L] from h)
    rw [Nat.add_assoc, Nat.sub_add_cancel hr.le] at this
    have e : (z + L) % L = z % L := Nat.add_mod_right z L
    rw [← e]
    exact this
  · intro h
    have h2 : z + L ≡ a + r [MOD L] := (Nat.add_mod_right z L).trans h
    refine Nat.ModEq.add_right_cancel' r ?_
    rw [Nat.add_assoc, Nat.sub_add_cancel hr.le]
    exact h2

/-- Adding `a` modulo `L`. -/
theorem sum_shift (a : Nat) (g : Nat → ℚ) : (∑ i : Fin L, g ((a + i) % L)) = ∑ i : Fin L, g i := by
  have : NeZero L := ⟨L_pos'.ne'⟩
  refine Fintype.sum_equiv (Equiv.addLeft (Fin.ofNat L a)) _ _ fun i => ?_
  rw [Equiv.coe_addLeft, Fin.val_add, Fin.val_ofNat, Nat.mod_add_mod]

theorem chance_shifted (D : Solver) (a : Nat) : chance (shifted D) (smul a B) = average D := by
  classical
  unfold chance Prog.pr shifted average
  rw [ex_bind, scalar_ex]
  congr 1
  rw [← sum_shift a fun x => chance D (smul x B)]
  refine Finset.sum_congr rfl fun r _ => ?_
  rw [smul_mod, add_smul_B, ex_bind]
  unfold chance Prog.pr
  congr 1
  funext z
  rw [ex_done]
  have hi : (∃ w, Option.map (fun z => (z + (L - r.val)) % L) z = some w ∧ smul w B = smul a B) ↔ ∃ w, z = some w ∧ smul w B = smul (a + r) B := by
    constructor
    · rintro ⟨w, h1, h2⟩
      obtain ⟨z', rfl, rfl⟩ := Option.map_eq_some_iff.mp h1
      exact ⟨z', rfl, (shift_iff a r z' r.isLt).mp h2⟩
    · rintro ⟨z', rfl, h2⟩
      exact ⟨_, rfl, (shift_iff a r z' r.isLt).mpr h2⟩
  by_cases h : ∃ w, z = some w ∧ smul w B = smul (a + r) B
  · rw [if_pos h, if_pos (hi.mpr h)]
  · rw [if_neg h, if_neg fun h' => h (hi.mp h')]

theorem num3 : 2 ^ 251 < L := by unfold L; decide +kernel
theorem num4 : Nat.Coprime 8 L := by unfold L; decide +kernel
theorem num5 : digests = 2 ^ 258 * 2 ^ 254 := by unfold digests; decide +kernel
theorem num6 : digests = 2 ^ 261 * 2 ^ 251 := by unfold digests; decide +kernel

theorem count_clamp (k : Nat) : (Finset.univ.filter fun i : Fin digests => i.val % 2 ^ 254 / 8 = k).card ≤ 2 ^ 261 := by
  rw [show (2 : Nat) ^ 261 = 2 ^ 258 * 8 by decide +kernel, ← Finset.card_range (2 ^ 258 * 8)]
  refine Finset.card_le_card_of_injOn (fun i => i.val / 2 ^ 254 * 8 + i.val % 8) ?_ ?_
  · intro i _
    simp only [Finset.coe_range, Set.mem_Iio]
    have h1 : i.val / 2 ^ 254 < 2 ^ 258 := by
      have := i.isLt
      rw [Nat.div_lt_iff_lt_mul (by positivity), ← num5]
      exact this
    generalize (2 : Nat) ^ 258 = w at *
    generalize (2 : Nat) ^ 254 = w' at *
    have := Nat.mod_lt i.val (show 8 > 0 by norm_num)
    omega
  · intro i hi j hj hij
    simp only [Finset.coe_filter, Finset.mem_univ, true_and, Set.mem_ofPred_eq] at hi hj
    have hij : i.val / 2 ^ 254 * 8 + i.val % 8 = j.val / 2 ^ 254 * 8 + j.val % 8 := hij
    ext
    have e1 := Nat.div_add_mod i.val (2 ^ 254)
    have e2 := Nat.div_add_mod j.val (2 ^ 254)
    have d1 : i.val % 2 ^ 254 % 8 = i.val % 8 := Nat.mod_mod_of_dvd _ (by norm_num)
    have d2 : j.val % 2 ^ 254 % 8 = j.val % 8 := Nat.mod_mod_of_dvd _ (by norm_num)
    have h1 : i.val / 2 ^ 254 = j.val / 2 ^ 254 ∧ i.val % 8 = j.val % 8 := by
      generalize i.val / 2 ^ 254 = a at *
      generalize j.val / 2 ^ 254 = b at *
      omega
    rw [← e1, ← e2, h1.1]
    have h2 : i.val % 2 ^ 254 = j.val % 2 ^ 254 := by
      rw [← h1.2] at d2
      generalize i.val % 2 ^ 254 = a at *
      generalize j.val % 2 ^ 254 = b at *
      omega
    rw [h2]

theorem take_toLE (n k x : Nat) : (toLE (n + k) x).take n = toLE n x := by
  induction n generalizing x with
  | zero => rfl
  | succ n ih => rw [show n + 1 + k = n + k + 1 by omega]; unfold toLE; rw [List.take_succ_cons, ih]

theorem clamp_digest (i : Fin digests) : leNat ((toLE 64 i).take 32) % 2 ^ 254 / 8 = i.val % 2 ^ 254 / 8 := by
  have h : leNat ((toLE 64 i).take 32) = i.val % 256 ^ 32 := by
    have h1 : (toLE 64 i.val).take 32 = toLE 32 i.val := take_toLE 32 32 _
    rw [h1, leNat_toLE]
  rw [h, Nat.mod_mod_of_dvd _ (by norm_num)]

/-- The sum over the clamped scalars. -/
theorem sum_clamped (g : Nat → ℚ) (h0 : ∀ x, 0 ≤ g x) : (∑ k : Fin (2 ^ 251), g ((k.val * 8 + 2 ^ 254) % L)) ≤ ∑ x : Fin L, g x := by
  classical
  have hinj : Function.Injective fun k : Fin (2 ^ 251) => (⟨(k.val * 8 + 2 ^ 254) % L, Nat.mod_lt _ L_pos'⟩ : Fin L) := by
    intro a b h
    have h1 : a.val * 8 + 2 ^ 254 ≡ b.val * 8 + 2 ^ 254 [MOD L] := Fin.mk.inj_iff.mp h
    have h2 := Nat.ModEq.add_right_cancel' _ h1
    have h3 := Nat.ModEq.cancel_right_of_coprime num4.symm h2
    ext
    exact Nat.ModEq.eq_of_lt_of_lt h3 (a.isLt.trans num3) (b.isLt.trans num3)
  calc _ = ∑ x ∈ Finset.univ.image (fun k : Fin (2 ^ 251) => (⟨(k.val * 8 + 2 ^ 254) % L, Nat.mod_lt _ L_pos'⟩ : Fin L)), g x.val :=
        (Finset.sum_image fun a _ b _ h => hinj h).symm
    _ ≤ _ := Finset.sum_le_sum_of_subset_of_nonneg (Finset.subset_univ _) fun x _ _ => h0 _

theorem digest_clamped (g : Nat → ℚ) (h0 : ∀ x, 0 ≤ g x) :
    (digest.ex fun az => g ((leNat (az.take 32) % 2 ^ 254 / 8 * 8 + 2 ^ 254) % L)) ≤ (∑ x : Fin L, g x) / 2 ^ 251 := by
  classical
  rw [digest_ex]
  simp only [clamp_digest]
  have e1 : ∑ i : Fin digests, g ((i.val % 2 ^ 254 / 8 * 8 + 2 ^ 254) % L) =
      ∑ k : Fin (2 ^ 251), ((Finset.univ.filter fun i : Fin digests => i.val % 2 ^ 254 / 8 = k.val).card : ℚ) * g ((k.val * 8 + 2 ^ 254) % L) := by
    have hk : ∀ i : Fin digests, i.val % 2 ^ 254 / 8 < 2 ^ 251 := fun i => by
      rw [Nat.div_lt_iff_lt_mul (by norm_num), show (2 : Nat) ^ 251 * 8 = 2 ^ 254 by decide +kernel]
      exact Nat.mod_lt _ (by positivity)
    rw [← Finset.sum_fiberwise_of_maps_to (s := Finset.univ) (t := Finset.univ)
      (g := fun i : Fin digests => (⟨i.val % 2 ^ 254 / 8, hk i⟩ : Fin (2 ^ 251))) (fun _ _ => Finset.mem_univ _)]
    refine Finset.sum_congr rfl fun k _ => ?_
    rw [Finset.sum_congr rfl (g := fun _ => g ((k.val * 8 + 2 ^ 254) % L))]
    · rw [Finset.sum_const, nsmul_eq_mul]
      congr 3
      ext i
      simp only [Finset.mem_filter, Finset.mem_univ, true_and, Fin.ext_iff]
    · intro i hi
      simp only [Finset.mem_filter, Finset.mem_univ, true_and] at hi
      rw [← hi]
  have e2 : ∑ i : Fin digests, g ((i.val % 2 ^ 254 / 8 * 8 + 2 ^ 254) % L) ≤ ((2 ^ 261 : Nat) : ℚ) * ∑ x : Fin L, g x := by
    rw [e1]
    refine le_trans ?_ (mul_le_mul_of_nonneg_left (sum_clamped g h0) (Nat.cast_nonneg _))
    rw [Finset.mul_sum]
    refine Finset.sum_le_sum fun k _ => mul_le_mul_of_nonneg_right ?_ (h0 _)
    exact_mod_cast count_clamp k.val
  have hD : (digests : ℚ) = ((2 ^ 261 : Nat) : ℚ) * 2 ^ 251 := by rw [num6]; push_cast; rfl
  rw [hD, div_le_div_iff₀ (mul_pos (Nat.cast_pos.mpr (by positivity)) (pow_pos two_pos _)) (pow_pos two_pos _)]
  calc _ ≤ (((2 ^ 261 : Nat) : ℚ) * ∑ x : Fin L, g x) * 2 ^ 251 := mul_le_mul_of_nonneg_right e2 (pow_nonneg zero_le_two _)
    _ = _ := by ring

end CryptoPure.LogGame
