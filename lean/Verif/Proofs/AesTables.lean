import Verif.Model.Aes
import Verif.Spec.Aes

/-! Facts about single bytes in AES: each is checked for all 256 bytes, i.e. on the whole domain. -/

namespace CryptoPure.Proofs.Aes
open CryptoPure.Model.Aes

set_option maxRecDepth 100000 in
theorem sBox_eq : ∀ x : U8, sBox x = Spec.Aes.sbox x := by decide +kernel
set_option maxRecDepth 100000 in
theorem ginv_spec : ∀ x : U8, x ≠ 0 → Spec.Aes.gmul x (Spec.Aes.ginv x) = 1 := by decide +kernel
set_option maxRecDepth 100000 in
theorem xtime_eq : ∀ x : U8, xtime x = Spec.Aes.gmul 2 x := by decide +kernel
set_option maxRecDepth 100000 in
theorem xtime_eq3 : ∀ x : U8, xtime x ^^^ x = Spec.Aes.gmul 3 x := by decide +kernel

set_option maxRecDepth 100000 in
theorem xtime_msb : ∀ x : U8, xtime x = (x <<< 1) ^^^ (if x.msb then 0x1b#8 else 0#8) := by decide +kernel

/-- Inverse of the affine map (FIPS 197 §5.3.2). -/
def invAffine (y : U8) : U8 :=
  BitVec.ofBoolListLE ((List.range 8).map fun i =>
    (y.getLsbD ((i + 2) % 8) ^^ y.getLsbD ((i + 5) % 8) ^^ y.getLsbD ((i + 7) % 8) ^^ (0x05 : U8).getLsbD i))

set_option maxRecDepth 100000 in
theorem sBox_left_inv : ∀ x : U8, Spec.Aes.ginv (invAffine (sBox x)) = x := by decide +kernel

end CryptoPure.Proofs.Aes
