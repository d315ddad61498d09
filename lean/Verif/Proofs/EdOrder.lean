import Verif.Proofs.MontOrder
import Verif.Proofs.PrimeL
import Verif.Proofs.EdSign

/-! # The group of the Edwards curve has `8 L` elements -/

namespace CryptoPure.Ed
open Spec Spec.Ed25519

theorem prime_L : L.Prime := by
  rw [L_val]; exact Prime.prime_7237005577332262213973186563042994240857116359379907606001950938285454250989

theorem encode_inj {P Q : Point} (hP : onCurve P) (hQ : onCurve Q) (h : encode P = encode Q) : P = Q :=
  decodesLax_unique (s := encode P) (Ed.Decodes.lax ⟨hP, rfl⟩) (Ed.Decodes.lax ⟨hQ, h.symm⟩)

theorem G_ne : G ≠ 0 := by
  intro h
  have h1 := congrArg (fun P : Pt25519 => P.1.2) h
  have h2 : Spec.Ed25519.B.2 = 1 := h1
  have h5 : ((5 * 46316835694926478169428394003475163141307993866256225615783033603165251855960 : Nat) : F) = ((4 : Nat) : F) :=
    cast_lit (by decide +kernel)
  rw [Nat.cast_mul, show ((46316835694926478169428394003475163141307993866256225615783033603165251855960 : Nat) : F) = B.2 from rfl,
    h2] at h5
  push_cast at h5
  refine one_ne_zero (α := F) ?_
  linear_combination h5

theorem addOrderOf_G : addOrderOf G = L := by
  have : Fact L.Prime := ⟨prime_L⟩
  exact addOrderOf_eq_prime order_G G_ne

theorem smulG_eq_iff {a b : Nat} : a • G = b • G ↔ a % L = b % L := by
  rw [← addOrderOf_G]
  exact nsmul_eq_nsmul_iff_modEq

/-- A point of order 8 and its doubles. -/
def t8 : Nat × Nat := (14399317868200118260347934320527232580618823971194345261214217575416788799818,
  55188659117513257062467267217118295137698188065244968500265048394206261417927)
/-- See `t8`. -/
def t4 : Nat × Nat := (38214883241950591754978413199355411911188925816896391856984770930832735035197, 0)
/-- See `t8`. -/
def t2 : Nat × Nat := (0, 57896044618658097711785492504343953926634992332820282019728792003956564819948)

theorem t8_on : onCurve (castPt t8) := by
  have h : ((t8.2 ^ 2 : Nat) : F) = ((1 + 37095705934669439343138083508754565189542113879843219016388785533085940283555 *
        t8.1 ^ 2 * t8.2 ^ 2 + t8.1 ^ 2 : Nat) : F) := cast_lit (by decide +kernel)
  push_cast at h
  unfold onCurve castPt
  rw [d_val]
  linear_combination h

/-- A point of order 8. -/
def T8 : Pt25519 := ⟨castPt t8, t8_on⟩

theorem T8_order : 8 • T8 = 0 ∧ 4 • T8 ≠ 0 := by
  have h2 : (T8 + T8).1 = castPt t4 := addOK_sound (P := t8) (Q := t8) (by decide +kernel) rfl rfl
  have h4 := addOK_sound (P := t4) (Q := t4) (R := t2) (by decide +kernel) h2 h2
  have h8 := addOK_sound (P := t2) (Q := t2) (R := (0, 1)) (by decide +kernel) h4 h4
  have e4 : 4 • T8 = T8 + T8 + (T8 + T8) := by abel
  have e8 : 8 • T8 = T8 + T8 + (T8 + T8) + (T8 + T8 + (T8 + T8)) := by abel
  rw [e4, e8]
  refine ⟨Subtype.ext (by rw [h8, zero_cast]), ?_⟩
  intro h
  rw [h] at h4
  have h5 := congrArg Prod.snd h4
  have h6 : ((1 : Nat) : F) = (((57896044618658097711785492504343953926634992332820282019728792003956564819948 : Nat)) : F) := by
    rw [Nat.cast_one]; exact h5
  have h7 := (ZMod.natCast_eq_natCast_iff' _ _ _).mp h6
  rw [Model.Fe.p25519_eq] at h7
  norm_num at h7

instance : Finite Pt25519 := by
  have : Finite F := inferInstanceAs (Finite (ZMod p25519))
  infer_instance

theorem card_le : Nat.card Pt25519 ≤ 2 * p25519 := by
  have hinj : Function.Injective (fun P : Pt25519 => ((P.1.2, ⟨P.1.1.val % 2, Nat.mod_lt _ (by norm_num)⟩) : F × Fin 2)) := by
    intro P Q h
    simp only [Prod.mk.injEq, Fin.mk.injEq] at h
    refine Subtype.ext (encode_inj P.2 Q.2 ?_)
    unfold encode
    rw [h.1, h.2]
  have := Nat.card_le_card_of_injective _ hinj
  rw [Nat.card_prod, Nat.card_fin, Nat.card_zmod] at this
  omega

/-- The number of points. -/
theorem card_Pt : Nat.card Pt25519 = 8 * L := by
  obtain ⟨n, hn⟩ := MontOrder.dvd_card prime_L (by norm_num [L]) order_G G_ne T8_order.1 T8_order.2
  have h1 := card_le
  have h0 : 0 < Nat.card Pt25519 := Nat.card_pos
  have hp : p25519 = 2 ^ 255 - 19 := rfl
  have hL : L = 2 ^ 252 + 27742317777372353535851937790883648493 := rfl
  have hn1 : n = 1 := by
    have : n < 2 := by
      by_contra h
      have : 8 * L * 2 ≤ 8 * L * n := Nat.mul_le_mul_left _ (by omega)
      omega
    have : n ≠ 0 := by
      rintro rfl
      omega
    omega
  rw [hn, hn1, mul_one]

theorem killed8L (P : Pt25519) : (8 * L) • P = 0 := by
  rw [← card_Pt]; exact card_nsmul_eq_zero'

end CryptoPure.Ed
