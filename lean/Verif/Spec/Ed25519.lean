import Verif.Proofs.Fe
import Verif.Spec.Sha2

/-! # Specification of Ed25519, RFC 8032 section 5.1

Points are pairs of field elements; `F` is the field of integers modulo 2^255 - 19 (Mathlib's `ZMod`; that the modulus
is prime, so that `/` is division, is proved in Verif/Proofs/Prime.lean). -/

namespace CryptoPure.Spec.Ed25519

/-- The order of the base point, RFC 8032 section 5.1. -/
def L : Nat := 2 ^ 252 + 27742317777372353535851937790883648493

theorem L_val : L = 7237005577332262213973186563042994240857116359379907606001950938285454250989 := by norm_num [L]

/-- The curve constant `d = -121665 / 121666`. -/
def d : F := -121665 / 121666

/-- A point `(x, y)`, in affine coordinates. -/
abbrev Point := F × F

/-- `-x² + y² = 1 + d x² y²`. -/
def onCurve (P : Point) : Prop := -P.1 ^ 2 + P.2 ^ 2 = 1 + d * P.1 ^ 2 * P.2 ^ 2

/-- The neutral element. -/
def zero : Point := (0, 1)

/-- The addition law, RFC 8032 section 5.1.4 (in affine form). -/
def add (P Q : Point) : Point :=
  ((P.1 * Q.2 + Q.1 * P.2) / (1 + d * P.1 * Q.1 * P.2 * Q.2), (P.2 * Q.2 + P.1 * Q.1) / (1 - d * P.1 * Q.1 * P.2 * Q.2))

/-- The opposite point. -/
def neg (P : Point) : Point := (-P.1, P.2)

/-- `[n]P`, by repeated addition. -/
def smul : Nat → Point → Point
  | 0, _ => zero
  | n + 1, P => add (smul n P) P

/-- The base point, RFC 8032 section 5.1. -/
def B : Point := (15112221349535400772501151409588531511454012693041857206046113283949847762202,
  46316835694926478169428394003475163141307993866256225615783033603165251855960)

/-- Encoding of a point, RFC 8032 section 5.1.2: `y` in 255 bits, then the least significant bit of `x`. -/
def encode (P : Point) : Bytes := toLE 32 (P.2.val + 2 ^ 255 * (P.1.val % 2))

/-- The secret scalar of RFC 8032 section 5.1.5: the first half of the hash, with the lowest three bits cleared, the
highest bit cleared and the second highest bit set. -/
def secretScalar (sk : Bytes) : Nat := leNat ((Sha2.sha512 sk).take 32) % 2 ^ 254 / 8 * 8 + 2 ^ 254

/-- The public key, RFC 8032 section 5.1.5. -/
def publicKey (sk : Bytes) : Bytes := encode (smul (secretScalar sk) B)

/-- Signing, RFC 8032 section 5.1.6. -/
def sign (M sk : Bytes) : Bytes :=
  let r := leNat (Sha2.sha512 ((Sha2.sha512 sk).drop 32 ++ M))
  let R := encode (smul r B)
  let k := leNat (Sha2.sha512 (R ++ publicKey sk ++ M))
  R ++ toLE 32 ((r + k * secretScalar sk) % L)

/-- Decoding of a point, RFC 8032 section 5.1.3: `s` decodes to `P` when `P` is on the curve and its encoding is `s`. -/
def Decodes (s : Bytes) (P : Point) : Prop := onCurve P ∧ encode P = s

/-- The laxer decoding of this library: the `y` coordinate is taken modulo `p`, and a set sign bit is accepted for
`x = 0`. -/
def DecodesLax (s : Bytes) (P : Point) : Prop :=
  onCurve P ∧ P.2 = ((leNat s % 2 ^ 255 : Nat) : F) ∧ (P.1 = 0 ∨ P.1.val % 2 = leNat s / 2 ^ 255 % 2)

/-- Verification, RFC 8032 section 5.1.7: decoding of `R`, `S` and `A`, range of `S`, and the group equation with the
cofactor 8. -/
def Valid (M sig pk : Bytes) : Prop :=
  sig.length = 64 ∧ leNat (sig.drop 32) < L ∧ ∃ A R, Decodes pk A ∧ Decodes (sig.take 32) R ∧
    smul 8 (smul (leNat (sig.drop 32)) B) =
      add (smul 8 R) (smul 8 (smul (leNat (Sha2.sha512 (sig.take 32 ++ pk ++ M))) A))

end CryptoPure.Spec.Ed25519
