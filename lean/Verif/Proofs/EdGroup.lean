import Verif.Spec.Ed25519
import Verif.Proofs.Edwards
import Verif.Proofs.Ladder
import Mathlib.NumberTheory.LegendreSymbol.Basic
import Mathlib.Algebra.Group.MinimalAxioms

/-! # The curve points of Ed25519 form a commutative group -/

namespace CryptoPure.Ed
open Spec Spec.Ed25519 Edwards

/-- A square root of -486664. -/
def c : F := 6853475219497561581579357271197624642482790079785650197046958215289687604742

theorem cast_eq {a b : Nat} (h : a % p25519 = b % p25519) : (a : F) = (b : F) :=
  (ZMod.natCast_eq_natCast_iff _ _ _).mpr h

theorem cast_lit {a b : Nat} (h : a % 57896044618658097711785492504343953926634992332820282019728792003956564819949 =
    b % 57896044618658097711785492504343953926634992332820282019728792003956564819949) : (a : F) = (b : F) :=
  cast_eq (by rw [Model.Fe.p25519_eq]; exact h)

theorem c_sq : c ^ 2 = -486664 := by
  have h : ((6853475219497561581579357271197624642482790079785650197046958215289687604742 ^ 2 + 486664 : Nat) : F) = ((0 : Nat) : F) :=
    cast_lit (by decide +kernel)
  unfold c
  push_cast at h
  linear_combination h

theorem sqrtm1_sq : (19681161376707505956807079304988542015446066515923890162744021073123829784752 : F) ^ 2 = -1 := by
  have h : ((19681161376707505956807079304988542015446066515923890162744021073123829784752 ^ 2 + 1 : Nat) : F) = ((0 : Nat) : F) :=
    cast_lit (by decide +kernel)
  push_cast at h
  linear_combination h

theorem n121666_ne : (121666 : F) ≠ 0 := by
  have := Ladder.nat_ne_zero (n := 121666) (by norm_num) (by norm_num [p25519])
  exact_mod_cast this

theorem d_eq : d = -(c ^ 2 + 4) / c ^ 2 := by
  have h := n121666_ne
  have h4 : (4 : F) ≠ 0 := by
    have := Ladder.nat_ne_zero (n := 4) (by norm_num) (by norm_num [p25519])
    exact_mod_cast this
  rw [c_sq, d, show (-486664 : F) = -(4 * 121666) by norm_num, show -(-(4 * 121666 : F) + 4) = 4 * 121665 by norm_num]
  field_simp

/-- The value of `d`. -/
theorem d_val : d = 37095705934669439343138083508754565189542113879843219016388785533085940283555 := by
  have h : ((37095705934669439343138083508754565189542113879843219016388785533085940283555 * 121666 + 121665 : Nat) : F) = ((0 : Nat) : F) :=
    cast_lit (by decide +kernel)
  push_cast at h
  rw [d, div_eq_iff n121666_ne]
  linear_combination -h

/-- Powers by kernel computation. -/
theorem pow_cast (a e r : Nat) (he : e < 2 ^ 256) (h : Prime.powMod p25519 256 a e 1 = r) : ((a : Nat) : F) ^ e = (r : F) := by
  rw [Prime.powMod_eq _ _ _ _ _ he, one_mul] at h
  rw [← Nat.cast_pow, ← h]
  exact cast_eq (Nat.mod_mod _ _).symm

theorem d_nonsq : ¬ IsSquare d := by
  have hd : (d : F) ≠ 0 := by
    rw [d]
    refine div_ne_zero (neg_ne_zero.mpr ?_) n121666_ne
    have := Ladder.nat_ne_zero (n := 121665) (by norm_num) (by norm_num [p25519])
    exact_mod_cast this
  have h1 := pow_cast 37095705934669439343138083508754565189542113879843219016388785533085940283555 (p25519 / 2) (p25519 - 1)
    (by norm_num [p25519]) (by rw [Model.Fe.p25519_eq]; decide +kernel)
  rw [ZMod.euler_criterion p25519 hd, d_val]
  rw [Nat.cast_ofNat] at h1
  rw [h1, Nat.cast_sub (by norm_num [p25519]), ZMod.natCast_self]
  intro h
  refine Ladder.two_ne ?_
  have h' : (0 : F) - 1 = 1 := by exact_mod_cast h
  linear_combination -h'

theorem hyp : Hyp c where
  two := Ladder.two_ne
  c0 := by
    intro h
    have := c_sq
    rw [h] at this
    have h3 := Ladder.nat_ne_zero (n := 486664) (by norm_num) (by norm_num [p25519])
    refine h3 ?_
    push_cast
    linear_combination this
  sqrtm1 := ⟨_, sqrtm1_sq⟩
  nonsq := by rw [← d_eq]; exact d_nonsq

theorem onCurve_iff {P : Point} : onCurve P ↔ On (-(c ^ 2 + 4) / c ^ 2) P.1 P.2 := by rw [← d_eq]; rfl

theorem add_eq (P Q : Point) : add P Q = addP (-(c ^ 2 + 4) / c ^ 2) P Q := by rw [← d_eq]; rfl

theorem add_on {P Q : Point} (hP : onCurve P) (hQ : onCurve Q) : onCurve (add P Q) := by
  rw [add_eq, onCurve_iff]
  exact addP_on hyp (onCurve_iff.mp hP) (onCurve_iff.mp hQ)

theorem add_assoc' {P Q R : Point} (hP : onCurve P) (hQ : onCurve Q) (hR : onCurve R) :
    add (add P Q) R = add P (add Q R) := by
  simp only [add_eq]
  exact addP_assoc hyp (onCurve_iff.mp hP) (onCurve_iff.mp hQ) (onCurve_iff.mp hR)

theorem zero_on : onCurve zero := by simp [onCurve, zero]
theorem neg_on {P : Point} (h : onCurve P) : onCurve (neg P) := by
  unfold onCurve neg at *; linear_combination h

/-- The points of the curve. -/
abbrev Pt25519 := { P : Point // onCurve P }

instance : Zero Pt25519 := ⟨⟨zero, zero_on⟩⟩
instance : Add Pt25519 := ⟨fun P Q => ⟨add P.1 Q.1, add_on P.2 Q.2⟩⟩
instance : Neg Pt25519 := ⟨fun P => ⟨neg P.1, neg_on P.2⟩⟩

theorem coe_zero : ((0 : Pt25519) : Point) = zero := rfl
theorem coe_add (P Q : Pt25519) : ((P + Q : Pt25519) : Point) = add P Q := rfl
theorem coe_neg (P : Pt25519) : ((-P : Pt25519) : Point) = neg P := rfl

instance : AddCommGroup Pt25519 where
  __ : AddGroup Pt25519 := AddGroup.ofLeftAxioms
    (fun P Q R => Subtype.ext (add_assoc' P.2 Q.2 R.2))
    (fun P => Subtype.ext (by rw [coe_add, coe_zero]; simp [add, zero]))
    (fun P => Subtype.ext (by
      rw [coe_add, coe_zero, coe_neg, add_eq]
      exact addP_neg hyp (onCurve_iff.mp P.2)))
  add_comm P Q := Subtype.ext (by rw [coe_add, coe_add, add_eq, add_eq, addP_comm])

theorem coe_smul (n : Nat) (P : Pt25519) : ((n • P : Pt25519) : Point) = smul n P := by
  induction n with
  | zero => rw [zero_smul]; rfl
  | succ n ih => rw [succ_nsmul, coe_add, ih]; rfl

theorem B_on : onCurve B := by
  have h : ((46316835694926478169428394003475163141307993866256225615783033603165251855960 ^ 2 : Nat) : F) =
      ((1 + 37095705934669439343138083508754565189542113879843219016388785533085940283555 *
        15112221349535400772501151409588531511454012693041857206046113283949847762202 ^ 2 *
        46316835694926478169428394003475163141307993866256225615783033603165251855960 ^ 2 +
        15112221349535400772501151409588531511454012693041857206046113283949847762202 ^ 2 : Nat) : F) :=
    cast_lit (by decide +kernel)
  push_cast at h
  unfold onCurve B
  rw [d_val]
  linear_combination h

/-- The base point as a group element. -/
def G : Pt25519 := ⟨B, B_on⟩

end CryptoPure.Ed
