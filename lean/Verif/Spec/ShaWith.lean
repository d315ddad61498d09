import Verif.Spec.Sha2

/-! # The hash computation of FIPS 180-4 with another compression function -/

namespace CryptoPure.Spec.Sha2

/-- As `hashBlocks` with `f` in place of the compression function. -/
def hashBlocksF {w : Nat} (A : Alg w) (f : Oct w → Bytes → Oct w) (H : Oct w) (padded : Bytes) : Oct w :=
  (chunks A.blockBytes padded).foldl f H

/-- As `digestWith` with `f` in place of the compression function. -/
def digestWithF {w : Nat} (A : Alg w) (f : Oct w → Bytes → Oct w) (iv : Oct w) (size : Nat) (msg : Bytes) (bits : Nat) : Bytes :=
  ((hashBlocksF A f iv (msg ++ padding A msg.length bits)).toList.flatMap fun x => toBE (w / 8) x.toNat).take size

/-- As `digest` with `f` in place of the compression function. -/
def digestF {w : Nat} (A : Alg w) (f : Oct w → Bytes → Oct w) (iv : Oct w) (size : Nat) (msg : Bytes) : Bytes :=
  digestWithF A f iv size msg (8 * msg.length)

end CryptoPure.Spec.Sha2
