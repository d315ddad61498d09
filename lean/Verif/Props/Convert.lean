import Verif.Proofs.X25519Order
import Verif.Props.Ed25519

/-! # C88: Ed25519 key pairs as X25519 key pairs -/

namespace CryptoPure.Props.Convert
open WeierstrassCurve Montgomery Spec Spec.X25519 CryptoPure.Ladder Edwards Ed
open Props.X25519 (C35_dh_rfc7748 decode_encode decodeScalar_lt)

/-- The birational map of RFC 7748 section 4.1 from edwards25519 to curve25519, first coordinate: `u = (1 + y)/(1 - y)`.
The neutral element, `y = 1`, has no image; with Lean's `x / 0 = 0` it goes to 0. -/
def toU (P : Spec.Ed25519.Point) : F := (1 + P.2) / (1 - P.2)

/-- The isomorphism of the two curves, with its effect on coordinates. -/
theorem iso : ∃ f : Pt25519 → (curve (486662 : F)).Point, (∀ P Q, f (P + Q) = f P + f Q) ∧ f 0 = 0 ∧
    ∀ P, x0 (f P) = toU P.1 := by
  have h : -c ^ 2 - 2 = (486662 : F) := by rw [c_sq]; norm_num
  rw [← h]
  refine ⟨fun P => phi hyp ⟨P.1, onCurve_iff.mp P.2⟩, ?_, ?_, ?_⟩
  · intro P Q
    have : (⟨(P + Q).1, onCurve_iff.mp (P + Q).2⟩ : Edwards.Pt c) =
        addPt hyp ⟨P.1, onCurve_iff.mp P.2⟩ ⟨Q.1, onCurve_iff.mp Q.2⟩ := Subtype.ext (add_eq P.1 Q.1)
    exact (congrArg (phi hyp) this).trans (phi_add hyp _ _)
  · exact phi_zero hyp _ rfl
  · intro P
    by_cases h0 : P.1.1 = 0 ∧ P.1.2 = 1
    · simp only [phi]
      rw [dif_pos h0, toU, h0.2, sub_self, div_zero]
      rfl
    · simp only [phi]
      rw [dif_neg h0]
      rfl

theorem ladder_toU {k : Nat} (hk : k < 2 ^ 255) (P : Spec.Ed25519.Point) (hP : Spec.Ed25519.onCurve P) :
    ladder k (toU P) = toU (Spec.Ed25519.smul k P) := by
  obtain ⟨f, h1, h2, h3⟩ := iso
  have h4 : ∀ n : Nat, f (n • ⟨P, hP⟩) = n • f ⟨P, hP⟩ := by
    intro n
    induction n with
    | zero => rw [zero_nsmul, zero_nsmul, h2]
    | succ n ih => rw [succ_nsmul, succ_nsmul, h1, ih]
  have := ladder_spec (K := F) hk (toU P) (f ⟨P, hP⟩) (h3 _)
  rw [← h4, h3, coe_smul] at this
  exact this

/-- C88. X25519 is scalar multiplication on edwards25519: for every point `P` of the Ed25519 curve and every secret key,
`dh` of the image of `P` is the image of the clamped scalar times `P`. -/
theorem C88_dh_on_edwards_points (m : Mode) (P : Spec.Ed25519.Point) (hP : Spec.Ed25519.onCurve P) (sk : Bytes)
    (h : sk.length = 32) :
    Model.X25519.dh m (encodeU (toU P)) sk = some (encodeU (toU (Spec.Ed25519.smul (decodeScalar sk) P))) := by
  rw [(C35_dh_rfc7748 m _ sk (by simp [encodeU]) h).1, x25519, decode_encode, ladder_toU (decodeScalar_lt sk) P hP]

theorem toU_B : toU Spec.Ed25519.B = 9 := MontOrder.B_u

theorem secretScalar_eq (sk : Bytes) :
    Spec.Ed25519.secretScalar sk = decodeScalar ((Sha2.sha512 sk).take 32) := rfl

theorem base_eq : (9 :: zeros 31 : Bytes) = encodeU 9 := by
  have h9 : (9 : F).val = 9 := by
    change ((9 : Nat) : F).val = 9
    exact ZMod.val_natCast_of_lt (by norm_num [p25519])
  rw [encodeU, h9]
  decide +kernel

theorem encode_y (P : Spec.Ed25519.Point) : ((leNat (Spec.Ed25519.encode P) % 2 ^ 255 : Nat) : F) = P.2 := by
  have h : P.2.val < p25519 := ZMod.val_lt _
  have hp : p25519 < 2 ^ 255 := by norm_num [p25519]
  rw [Spec.Ed25519.encode, leNat_toLE, Nat.mod_eq_of_lt (by omega : _ < 256 ^ 32), Nat.add_mul_mod_self_left,
    Nat.mod_eq_of_lt (by omega), ZMod.natCast_zmod_val]

/-- A clamped multiple of the base point is not the neutral element. -/
theorem clamped_ne_zero (k : Bytes) : decodeScalar k • G ≠ 0 := by
  intro h
  have h0 : G ≠ 0 := fun e => MontOrder.B_y_ne (congrArg (fun P : Pt25519 => P.1.2) e)
  have ho : addOrderOf G = Spec.Ed25519.L := @addOrderOf_eq_prime _ _ _ _ ⟨MontOrder.prime_L⟩ order_G h0
  have hd : Spec.Ed25519.L ∣ decodeScalar k := ho ▸ addOrderOf_dvd_of_nsmul_eq_zero h
  have h8 : decodeScalar k = 8 * (leNat k % 2 ^ 254 / 8 + 2 ^ 251) := by
    unfold decodeScalar; ring
  rw [h8] at hd
  have hc : Nat.Coprime Spec.Ed25519.L 8 := by
    have := (Nat.coprime_primes MontOrder.prime_L Nat.prime_two).mpr (by norm_num [Spec.Ed25519.L])
    exact Nat.Coprime.pow_right 3 this
  have := Nat.le_of_dvd (by omega) (hc.dvd_of_dvd_mul_left hd)
  unfold Spec.Ed25519.L at this
  omega

theorem y_ne_one {P : Pt25519} (h : P ≠ 0) : P.1.2 ≠ 1 := by
  intro hy
  refine one_sub_ne hyp (onCurve_iff.mp P.2) ?_ (by rw [hy, sub_self])
  rintro ⟨h1, h2⟩
  exact h (Subtype.ext (Prod.ext h1 h2))

/-- C88. For every 32-byte Ed25519 secret key `sk`: the X25519 public key of the first half of SHA-512(sk) is the image
of the Ed25519 public key of `sk` under the birational map. With `y` the number in the low 255 bits of the Ed25519 key,
`y ≠ 1` and the X25519 key is the canonical encoding of `(1 + y)/(1 - y)`. -/
theorem C88_public_keys_convert (m : Mode) (sk : Bytes) (h : sk.length = 32) :
    ∃ hash epk xpk : Bytes, Model.Sha2.sha512 m sk = some hash ∧ hash = Spec.Sha2.sha512 sk ∧
      Model.Ed25519.genPk m sk = some epk ∧ Model.X25519.genPk m (hash.take 32) = some xpk ∧
      ((leNat epk % 2 ^ 255 : Nat) : F) ≠ 1 ∧
      xpk = encodeU ((1 + ((leNat epk % 2 ^ 255 : Nat) : F)) / (1 - ((leNat epk % 2 ^ 255 : Nat) : F))) := by
  refine ⟨_, _, _, sha512_spec m sk (by rw [h]; norm_num), rfl, Props.Ed25519.C41_gen_pk_rfc8032 m sk h,
    (C35_dh_rfc7748 m (zeros 32) _ (by decide) (by rw [List.length_take, sha512_length]; rfl)).2, ?_, ?_⟩
  · rw [Spec.Ed25519.publicKey, encode_y, secretScalar_eq]
    have := y_ne_one (clamped_ne_zero ((Sha2.sha512 sk).take 32))
    rwa [coe_smul] at this
  · rw [Spec.Ed25519.publicKey, encode_y, secretScalar_eq, x25519, base_eq, decode_encode, ← toU_B,
      ladder_toU (decodeScalar_lt _) _ B_on]
    rfl

/-- The X25519 public key made from an Ed25519 public key by the birational map. -/
def convertPk (epk : Bytes) : Bytes :=
  encodeU ((1 + ((leNat epk % 2 ^ 255 : Nat) : F)) / (1 - ((leNat epk % 2 ^ 255 : Nat) : F)))

/-- C88. Key agreement between two Ed25519 key pairs: each party applies `dh` to the other's converted public key and
the first half of the SHA-512 of its own secret key; neither call panics and the results are equal. -/
theorem C88_agreement_from_signing_keys (m : Mode) (a b : Bytes) (ha : a.length = 32) (hb : b.length = 32) :
    ∃ pa pb s, Model.Ed25519.genPk m a = some pa ∧ Model.Ed25519.genPk m b = some pb ∧
      Model.X25519.dh m (convertPk pa) ((Spec.Sha2.sha512 b).take 32) = some s ∧
      Model.X25519.dh m (convertPk pb) ((Spec.Sha2.sha512 a).take 32) = some s := by
  have hl : ∀ x : Bytes, ((Sha2.sha512 x).take 32).length = 32 := fun x => by rw [List.length_take, sha512_length]; rfl
  obtain ⟨_, pa, xa, -, rfl, h1, h2, -, h3⟩ := C88_public_keys_convert m a ha
  obtain ⟨_, pb, xb, -, rfl, k1, k2, -, k3⟩ := C88_public_keys_convert m b hb
  obtain ⟨xa', xb', s, e1, e2, e3, e4⟩ := Props.X25519.C37_key_agreement m _ _ (hl a) (hl b)
  rw [h2] at e1
  rw [k2] at e2
  cases e1
  cases e2
  refine ⟨pa, pb, s, h1, k1, ?_, ?_⟩
  · rw [convertPk, ← h3]; exact e3
  · rw [convertPk, ← k3]; exact e4

example : (zeros 32).length = 32 ∧ (List.replicate 32 (7 : U8)).length = 32 := by decide

/-- A point of the curve other than the neutral element: the base point. -/
example : Spec.Ed25519.onCurve Spec.Ed25519.B ∧ Spec.Ed25519.B ≠ Spec.Ed25519.zero ∧ toU Spec.Ed25519.B = 9 :=
  ⟨B_on, fun h => MontOrder.B_y_ne (congrArg Prod.snd h), toU_B⟩

/-! ## Further concrete cases -/

example (sk : Bytes) (h : sk.length = 32) :
    Model.X25519.dh .debug (encodeU (toU Spec.Ed25519.B)) sk = some (encodeU (toU (Spec.Ed25519.smul (decodeScalar sk) Spec.Ed25519.B))) :=
  C88_dh_on_edwards_points .debug _ B_on sk h

example := C88_public_keys_convert .debug (zeros 32) (by decide)

example := C88_agreement_from_signing_keys .release (zeros 32) (List.replicate 32 7) (by decide) (by decide)

end CryptoPure.Props.Convert
