import Verif.Proofs.Montgomery
import Verif.Proofs.X25519

/-! # The ladder computes scalar multiples -/

namespace CryptoPure.Ladder
open WeierstrassCurve Montgomery Spec Spec.X25519

theorem nat_ne_zero {n : Nat} (h0 : 0 < n) (h : n < p25519) : ((n : Nat) : F) ≠ 0 := by
  intro h1
  rw [ZMod.natCast_eq_zero_iff] at h1
  exact absurd (Nat.le_of_dvd h0 h1) (by omega)

theorem two_ne : (2 : F) ≠ 0 := by
  have := nat_ne_zero (n := 2) (by norm_num) (by norm_num [p25519])
  exact_mod_cast this

theorem A_ne : (486662 : F) ^ 2 ≠ 4 := by
  have := nat_ne_zero (n := 486662 ^ 2 - 4) (by norm_num) (by norm_num [p25519])
  rw [Nat.cast_sub (by norm_num)] at this
  intro h
  apply this
  rw [Nat.cast_pow]
  have h' : ((486662 : Nat) : F) ^ 2 = 4 := by exact_mod_cast h
  rw [h']
  norm_num

section
set_option linter.unusedSectionVars false
variable {K : Type*} [Field K] [DecidableEq K] [Algebra F K]

theorem two_ne' : (2 : K) ≠ 0 := by
  have := (map_ne_zero (algebraMap F K)).mpr two_ne
  rwa [map_ofNat] at this

theorem A_ne' : (486662 : K) ^ 2 ≠ 4 := by
  have := (algebraMap F K).injective.ne A_ne
  rwa [map_pow, map_ofNat, map_ofNat] at this

/-- The two points of a ladder state are `n • P` and `(n + 1) • P`. -/
def Inv (P : (curve (486662 : K)).Point) (n : Nat) (s : St) : Prop :=
  if s.swap then
    Rep (algebraMap F K s.x3) (algebraMap F K s.z3) (n • P) ∧ Rep (algebraMap F K s.x2) (algebraMap F K s.z2) ((n + 1) • P)
  else
    Rep (algebraMap F K s.x2) (algebraMap F K s.z2) (n • P) ∧ Rep (algebraMap F K s.x3) (algebraMap F K s.z3) ((n + 1) • P)

theorem dbl_map {X Z : F} {Q : (curve (486662 : K)).Point} (h : Rep (algebraMap F K X) (algebraMap F K Z) Q) :
    Rep (algebraMap F K ((X + Z) ^ 2 * (X - Z) ^ 2))
      (algebraMap F K (((X + Z) ^ 2 - (X - Z) ^ 2) * ((X + Z) ^ 2 + 121665 * ((X + Z) ^ 2 - (X - Z) ^ 2)))) (Q + Q) := by
  have := rep_dbl two_ne' A_ne' h
  convert this using 1
  · simp only [map_mul, map_pow, map_sub, map_add]
    ring
  · simp only [map_mul, map_pow, map_sub, map_add, map_ofNat]
    ring

theorem add_map {u X2 Z2 X3 Z3 : F} (hu : u ≠ 0) {Q R : (curve (486662 : K)).Point} {v : K}
    {hP : (curve (486662 : K)).Nonsingular (algebraMap F K u) v} (hd : R - Q = .some _ v hP)
    (hQ : Rep (algebraMap F K X2) (algebraMap F K Z2) Q) (hR : Rep (algebraMap F K X3) (algebraMap F K Z3) R) :
    Rep (algebraMap F K (((X3 - Z3) * (X2 + Z2) + (X3 + Z3) * (X2 - Z2)) ^ 2))
      (algebraMap F K (u * ((X3 - Z3) * (X2 + Z2) - (X3 + Z3) * (X2 - Z2)) ^ 2)) (Q + R) := by
  have := rep_add two_ne' A_ne' ((map_ne_zero (algebraMap F K)).mpr hu) hd hQ hR
  convert this using 1
  · simp only [map_mul, map_pow, map_sub, map_add]
    ring
  · simp only [map_mul, map_pow, map_sub, map_add]
    ring

/-- The same with the roles of the two points exchanged. -/
theorem add_map' {u X2 Z2 X3 Z3 : F} (hu : u ≠ 0) {Q R : (curve (486662 : K)).Point} {v : K}
    {hP : (curve (486662 : K)).Nonsingular (algebraMap F K u) v} (hd : R - Q = .some _ v hP)
    (hQ : Rep (algebraMap F K X2) (algebraMap F K Z2) Q) (hR : Rep (algebraMap F K X3) (algebraMap F K Z3) R) :
    Rep (algebraMap F K (((X2 - Z2) * (X3 + Z3) + (X2 + Z2) * (X3 - Z3)) ^ 2))
      (algebraMap F K (u * ((X2 - Z2) * (X3 + Z3) - (X2 + Z2) * (X3 - Z3)) ^ 2)) (Q + R) := by
  have := add_map hu hd hQ hR
  convert this using 2
  · ring
  · ring

theorem step_inv {u : F} (hu : u ≠ 0) {v : K} (hP : (curve (486662 : K)).Nonsingular (algebraMap F K u) v) {n : Nat} {s : St}
    (b : Bool) (h : Inv (.some _ v hP) n s) : Inv (.some _ v hP) (2 * n + b.toNat) (step u b s) := by
  generalize hPP : (Affine.Point.some _ v hP : (curve (486662 : K)).Point) = P at *
  have hd : (n + 1) • P - n • P = .some _ v hP := by rw [add_smul, one_smul, hPP]; abel
  have e0 : n • P + n • P = (2 * n + 0) • P := by rw [← add_smul]; congr 1; ring
  have e1 : n • P + (n + 1) • P = (2 * n + 0 + 1) • P := by rw [← add_smul]; congr 1; ring
  have e2 : (n + 1) • P + (n + 1) • P = (2 * n + 1 + 1) • P := by rw [← add_smul]; congr 1; ring
  unfold Inv at h
  unfold step cswap
  cases hs : s.swap <;> cases b <;> rw [hs] at h <;> simp only [if_true, Bool.false_eq_true, if_false] at h <;>
    obtain ⟨hQ, hR⟩ := h <;> unfold Inv <;>
    simp only [if_true, Bool.false_eq_true, if_false, Bool.toNat_true, Bool.toNat_false, Bool.xor_true, Bool.xor_false,
      Bool.not_true, Bool.not_false]
  · rw [← e1, ← e0]; exact ⟨dbl_map hQ, add_map hu hd hQ hR⟩
  · rw [← e2, ← e1]; exact ⟨add_map' hu hd hQ hR, dbl_map hR⟩
  · rw [← e1, ← e0]; exact ⟨dbl_map hQ, add_map hu hd hQ hR⟩
  · rw [← e2, ← e1]; exact ⟨add_map' hu hd hQ hR, dbl_map hR⟩

theorem fold_inv {u : F} (hu : u ≠ 0) {v : K} (hP : (curve (486662 : K)).Nonsingular (algebraMap F K u) v) (k : Nat) (j : Nat)
    {n : Nat} {s : St} (h : Inv (.some _ v hP) n s) :
    Inv (.some _ v hP) (n * 2 ^ j + k % 2 ^ j) ((List.range j).reverse.foldl (fun s t => step u (k.testBit t) s) s) := by
  induction j generalizing n s with
  | zero => simpa [Nat.mod_one] using h
  | succ j ih =>
    rw [List.range_succ, List.reverse_append, List.reverse_singleton, List.singleton_append, List.foldl_cons]
    have := ih (step_inv hu hP (k.testBit j) h)
    convert this using 1
    rw [Nat.toNat_testBit, pow_succ, Nat.mod_mul]
    ring

end

/-! ## u = 0 -/

def InvZ (s : St) : Prop := s.x2 * s.z2 = 0 ∧ s.x3 * s.z3 = 0

theorem step_invZ {s : St} (b : Bool) (h : InvZ s) : InvZ (step 0 b s) := by
  obtain ⟨h1, h2⟩ := h
  unfold InvZ step cswap
  simp only
  refine ⟨?_, by ring⟩
  split
  · simp only
    linear_combination 4 * (s.x3 + s.z3) ^ 2 * (s.x3 - s.z3) ^ 2 * ((s.x3 + s.z3) ^ 2 + 121665 * ((s.x3 + s.z3) ^ 2 - (s.x3 - s.z3) ^ 2)) * h2
  · simp only
    linear_combination 4 * (s.x2 + s.z2) ^ 2 * (s.x2 - s.z2) ^ 2 * ((s.x2 + s.z2) ^ 2 + 121665 * ((s.x2 + s.z2) ^ 2 - (s.x2 - s.z2) ^ 2)) * h1

theorem fold_invZ (k : Nat) (l : List Nat) {s : St} (h : InvZ s) : InvZ (l.foldl (fun s t => step 0 (k.testBit t) s) s) := by
  induction l generalizing s with
  | nil => exact h
  | cons a l ih => exact ih (step_invZ _ h)

theorem pow_inv (z : F) : z ^ (p25519 - 2) = z⁻¹ := by
  by_cases h0 : z = 0
  · rw [h0, inv_zero, zero_pow (by norm_num [p25519])]
  · refine eq_inv_of_mul_eq_one_left ?_
    rw [← pow_succ, show p25519 - 2 + 1 = p25519 - 1 by norm_num [p25519]]
    exact ZMod.pow_card_sub_one_eq_one h0

/-- The affine result of a ladder state. -/
def finish (t : St) : F := if t.swap then t.x3 * t.z3⁻¹ else t.x2 * t.z2⁻¹

theorem ladder_eq (k : Nat) (u : F) : ladder k u = finish ((List.range 255).reverse.foldl
    (fun s t => step u (k.testBit t) s) { x2 := 1, z2 := 0, x3 := u, z3 := 1, swap := false }) := by
  unfold ladder
  simp only [pow_inv]
  generalize (List.range 255).reverse.foldl (fun s t => step u (k.testBit t) s)
    { x2 := 1, z2 := 0, x3 := u, z3 := 1, swap := false } = t
  unfold cswap finish
  cases t.swap <;> rfl

theorem ladder_zero (k : Nat) : ladder k 0 = 0 := by
  rw [ladder_eq]
  have := fold_invZ k (List.range 255).reverse (s := { x2 := 1, z2 := 0, x3 := 0, z3 := 1, swap := false })
    ⟨by simp, by simp⟩
  revert this
  generalize (List.range 255).reverse.foldl (fun s t => step 0 (k.testBit t) s)
    { x2 := 1, z2 := 0, x3 := 0, z3 := 1, swap := false } = t
  intro h
  unfold finish
  obtain ⟨h1, h2⟩ := h
  split
  · rcases mul_eq_zero.mp h2 with h | h <;> simp [h]
  · rcases mul_eq_zero.mp h1 with h | h <;> simp [h]

theorem x0_smul_of_x0_eq_zero {K : Type*} [Field K] [DecidableEq K] {A : K} (P : (curve A).Point) (h : x0 P = 0) (k : Nat) :
    x0 (k • P) = 0 := by
  have h2 : P + P = 0 := by
    match P, h with
    | .zero, _ => exact add_zero (0 : (curve A).Point)
    | .some x y hn, h =>
      have hx : x = 0 := h
      subst hx
      have he := equation_iff.mp hn.1
      have hy : y = 0 := by
        have : y ^ 2 = 0 := by rw [he]; ring
        exact pow_eq_zero_iff (two_ne_zero) |>.mp this
      exact Affine.Point.add_self_of_Y_eq (by rw [negY_eq, hy, neg_zero])
  have : k • P = 0 ∨ k • P = P := by
    induction k with
    | zero => left; exact zero_smul _ _
    | succ k ih =>
      rw [add_smul, one_smul]
      rcases ih with h | h
      · right; rw [h, zero_add]
      · left; rw [h, h2]
  rcases this with h' | h'
  · rw [h']; rfl
  · rw [h', h]

attribute [local irreducible] Inv in
/-- The ladder computes the x-coordinate of the scalar multiple, for every point of the curve over every extension
field of `F`. -/
theorem ladder_spec {K : Type*} [Field K] [DecidableEq K] [Algebra F K] {k : Nat} (hk : k < 2 ^ 255) (u : F)
    (P : (curve (486662 : K)).Point) (hP : x0 P = algebraMap F K u) : algebraMap F K (ladder k u) = x0 (k • P) := by
  by_cases hu : u = 0
  · subst hu
    rw [ladder_zero, map_zero, x0_smul_of_x0_eq_zero P (by rw [hP, map_zero])]
  · match P, hP with
    | .zero, hP =>
      exfalso
      exact (map_ne_zero (algebraMap F K)).mpr hu hP.symm
    | .some x v hn, hP =>
      have hx : x = algebraMap F K u := hP
      subst hx
      rw [ladder_eq]
      have h0 : Inv (.some _ v hn : (curve (486662 : K)).Point) 0 { x2 := 1, z2 := 0, x3 := u, z3 := 1, swap := false } := by
        unfold Inv
        simp only [Bool.false_eq_true, if_false]
        rw [zero_smul, zero_add, one_smul]
        exact ⟨⟨by simp, by simp⟩, ⟨by simp, by simp⟩⟩
      have key := fun j => fold_inv hu hn k j h0
      have this := key 255
      rw [Nat.zero_mul, Nat.zero_add, Nat.mod_eq_of_lt hk] at this
      revert this
      generalize (List.range 255).reverse.foldl (fun s t => step u (k.testBit t) s)
        { x2 := 1, z2 := 0, x3 := u, z3 := 1, swap := false } = t
      intro h
      unfold Inv at h
      unfold finish
      cases hs : t.swap <;> rw [hs] at h <;> simp only [if_true, Bool.false_eq_true, if_false] at h ⊢ <;>
        rw [map_mul, map_inv₀]
      · exact rep_x0 h.1
      · exact rep_x0 h.1

end CryptoPure.Ladder
