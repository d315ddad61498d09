import Verif.Proofs.EdSign

/-! # C41–C46, C49, C52, C53: Ed25519

The public functions are `gen_pk`, `sign` and `verify`; `none` is a panic. The specification is Verif/Spec/Ed25519.lean. -/

namespace CryptoPure.Props.Ed25519
open Model Spec Spec.Ed25519 CryptoPure.Ed
open Model.Ed25519 (genPk verify)

/-! ## C41 -/

/-- C41. The public key of RFC 8032, in both build modes, for every secret key of 32 bytes. -/
theorem C41_gen_pk_rfc8032 (m : Mode) (sk : Bytes) (h : sk.length = 32) : genPk m sk = some (publicKey sk) := genPk_spec m h

/-- C41. Any other length panics. -/
theorem C41_gen_pk_panics (m : Mode) (sk : Bytes) : genPk m sk = none ↔ sk.length ≠ 32 := by
  constructor
  · intro h hc
    rw [C41_gen_pk_rfc8032 m sk hc] at h
    cases h
  · intro h
    unfold genPk
    rw [show (32 == sk.length) = false from beq_eq_false_iff_ne.mpr (fun e => h e.symm)]
    rfl

/-- C41. The key is 32 bytes long and is the encoding of the multiple of the base point by a scalar which is a multiple
of 8 with highest bit 254; that multiple is a point of the curve, and `L` times it is the neutral element. -/
theorem C41_gen_pk_point (m : Mode) (sk : Bytes) (h : sk.length = 32) :
    ∃ pk a, genPk m sk = some pk ∧ pk.length = 32 ∧ a % 8 = 0 ∧ 2 ^ 254 ≤ a ∧ a < 2 ^ 255 ∧
      Decodes pk (smul a B) ∧ smul L (smul a B) = zero := by
  refine ⟨_, secretScalar sk, C41_gen_pk_rfc8032 m sk h, encode_length _, ?_, ?_, ?_, decodes_smul _, ?_⟩
  · unfold secretScalar; omega
  · unfold secretScalar; omega
  · unfold secretScalar; omega
  · rw [smul_smul', mul_comm, ← coe_smulG, mul_smul, order_G, smul_zero, coe_zero]

example : genPk .debug (zeros 32) = some (publicKey (zeros 32)) := C41_gen_pk_rfc8032 .debug _ (by decide)
example : genPk .debug (zeros 31) = none := (C41_gen_pk_panics .debug _).mpr (by decide)

/-! ## C42 -/

/-- C42. The signature of RFC 8032, in both build modes, for every key and every message within the range of the hash
function's length counter. -/
theorem C42_sign_rfc8032 (m : Mode) (M sk : Bytes) (h : sk.length = 32) (hM : M.length + 64 < 2 ^ 61) :
    Model.Ed25519.sign m M sk = some (Spec.Ed25519.sign M sk) := sign_spec m h hM

/-- C42. A key of another length panics. -/
theorem C42_sign_panics (m : Mode) (M sk : Bytes) (h : sk.length ≠ 32) : Model.Ed25519.sign m M sk = none := by
  unfold Model.Ed25519.sign
  rw [show (32 == sk.length) = false from beq_eq_false_iff_ne.mpr (fun e => h e.symm)]
  rfl

/-- C42. A signature has 64 bytes; its second half is below `L` and its first half encodes a point of the curve. -/
theorem C42_sign_canonical (m : Mode) (M sk sig : Bytes) (hM : M.length + 64 < 2 ^ 61)
    (h : Model.Ed25519.sign m M sk = some sig) :
    sig.length = 64 ∧ leNat (sig.drop 32) < L ∧ ∃ R, Decodes (sig.take 32) R := by
  have hl : sk.length = 32 := by
    by_contra hc
    rw [C42_sign_panics m M sk hc] at h
    cases h
  rw [C42_sign_rfc8032 m M sk hl hM] at h
  cases h
  unfold Spec.Ed25519.sign
  simp only
  refine ⟨by simp [encode], ?_, ?_⟩
  · rw [List.drop_left' (encode_length _), leNat_canon]
    exact Nat.mod_lt _ L_pos
  · rw [List.take_left' (encode_length _)]
    exact ⟨_, decodes_smul _⟩

example : ∃ sig, Model.Ed25519.sign .release [1, 2, 3] (zeros 32) = some sig :=
  ⟨_, C42_sign_rfc8032 .release _ _ (by decide) (by decide)⟩

/-! ## C43 -/

theorem hash_split (m : Mode) (a b M : Bytes) (h : m = .release ∨ (a ++ b ++ M).length < 2 ^ 61) :
    Model.Ed25519.hashParts m [a ++ b, M] = Model.Ed25519.hashParts m [a, b, M] := by
  rcases h with rfl | h
  · have h1 := Props.streamed_release .sha512 [a ++ b, M] (zeros 64) (by decide)
    have h2 := Props.streamed_release .sha512 [a, b, M] (zeros 64) (by decide)
    rw [show [a ++ b, M].flatten = [a, b, M].flatten by simp, ← h2] at h1
    exact h1
  · rw [hash_spec m [a ++ b, M] (by simpa using h), hash_spec m [a, b, M] (by simpa using h)]
    simp

theorem verifies_core (m : Mode) {M sk : Bytes} (h : sk.length = 32) {n1 n2 : Bytes}
    (h1 : Model.Ed25519.hashParts m [(Spec.Sha2.sha512 sk).drop 32, M] = some n1) (l1 : n1.length = 64)
    (h2 : Model.Ed25519.hashParts m [encode (smul (leNat n1) B) ++ publicKey sk, M] = some n2) (l2 : n2.length = 64)
    (hm : m = .release ∨ (encode (smul (leNat n1) B) ++ publicKey sk ++ M).length < 2 ^ 61) :
    ∃ sig, Model.Ed25519.sign m M sk = some sig ∧ verify m M sig (publicKey sk) = some true := by
  refine ⟨_, sign_core m h h1 l1 h2 l2, ?_⟩
  rw [hash_split m _ _ _ hm] at h2
  have hR : (encode (smul (leNat n1) B)).length = 32 := encode_length _
  generalize hsig : encode (smul (leNat n1) B) ++ toLE 32 ((leNat n1 + leNat n2 * secretScalar sk) % L) = sig
  have ht : sig.take 32 = encode (smul (leNat n1) B) := by rw [← hsig, List.take_left' hR]
  have hd : sig.drop 32 = toLE 32 ((leNat n1 + leNat n2 * secretScalar sk) % L) := by rw [← hsig, List.drop_left' hR]
  rw [← ht] at h2
  obtain ⟨b, e, hb⟩ := verify_core m (sig := sig) (pk := publicKey sk) (encode_length _) h2 l2
  rw [e]
  congr 1
  rw [hb, ht, hd, leNat_canon]
  refine ⟨by rw [← hsig]; simp [hR], lt_trans (Nat.mod_lt _ L_pos) (by norm_num [L]), _, Ed.Decodes.lax (decodes_smul _), ?_⟩
  congr 1
  rw [smul_smul', ← coe_smulG, ← coe_smulG, ← coe_neg, ← coe_add, ← coe_smulG, smul_mod_L, add_smul,
    mul_smul (leNat n2 % L), smul_comm, smul_mod_L, smul_comm, ← mul_smul, add_neg_cancel_right]

/-- C43. What `sign` returns is accepted by `verify` with the matching public key. In release builds this holds for
messages of any length. -/
theorem C43_sign_verifies (m : Mode) (M sk : Bytes) (h : sk.length = 32) (hM : m = .release ∨ M.length + 64 < 2 ^ 61) :
    ∃ pk sig, genPk m sk = some pk ∧ Model.Ed25519.sign m M sk = some sig ∧ verify m M sig pk = some true := by
  refine ⟨publicKey sk, ?_⟩
  have hl : ((Spec.Sha2.sha512 sk).drop 32).length = 32 := by rw [List.length_drop, sha512_length]
  have hpk : (publicKey sk).length = 32 := encode_length _
  have hash : ∀ parts : List Bytes, parts.flatten.length ≤ M.length + 64 →
      ∃ n, Model.Ed25519.hashParts m parts = some n ∧ n.length = 64 := by
    intro parts hp
    rcases hM with rfl | hM
    · exact hash_release parts
    · exact ⟨_, hash_spec m parts (by omega), sha512_length _⟩
  obtain ⟨n1, h1, l1⟩ := hash [(Spec.Sha2.sha512 sk).drop 32, M] (by simp [hl]; omega)
  obtain ⟨n2, h2, l2⟩ := hash [encode (smul (leNat n1) B) ++ publicKey sk, M] (by simp [hpk, encode_length]; omega)
  obtain ⟨sig, e1, e2⟩ := verifies_core m h h1 l1 h2 l2 (by
    rcases hM with hM | hM
    · exact Or.inl hM
    · right; simp only [List.length_append, hpk, encode_length]; omega)
  exact ⟨sig, C41_gen_pk_rfc8032 m sk h, e1, e2⟩

example : ∃ pk sig, genPk .debug (zeros 32) = some pk ∧ Model.Ed25519.sign .debug [7] (zeros 32) = some sig ∧
    verify .debug [7] sig pk = some true := C43_sign_verifies .debug _ _ (by decide) (Or.inr (by decide))

/-! ## C44 -/

/-- C44. `verify` decides the cofactorless equation, the hash being reduced modulo `L`. -/
theorem C44_verify_iff (m : Mode) (M sig pk : Bytes) (hpk : pk.length = 32) (hM : M.length + 64 < 2 ^ 61) :
    verify m M sig pk = some true ↔
      sig.length = 64 ∧ leNat (sig.drop 32) < 2 ^ 253 ∧ ∃ A, DecodesLax pk A ∧
        sig.take 32 = encode (add (smul (leNat (sig.drop 32)) B)
          (neg (smul (leNat (Spec.Sha2.sha512 (sig.take 32 ++ pk ++ M)) % L) A))) := by
  obtain ⟨b, e, hb⟩ := verify_spec m (M := M) (sig := sig) hpk hM
  rw [e, Option.some_inj, hb]
  simp only [eq_comm]

/-- C44. At most one point is decoded from a public key. -/
theorem C44_decode_unique (pk : Bytes) (A A' : Point) (h : DecodesLax pk A) (h' : DecodesLax pk A') : A = A' :=
  decodesLax_unique h h'

/-- C44. A signature that satisfies the equation `[S]B = R + [k]A` of RFC 8032, with `S < L` and with canonical
encodings, for a key in the subgroup of order `L`, is accepted. -/
theorem C44_rfc8032_accepted (m : Mode) (M sig pk : Bytes) (hM : M.length + 64 < 2 ^ 61) (A R : Point)
    (hs : sig.length = 64) (hS : leNat (sig.drop 32) < L) (hA : Decodes pk A) (hR : Decodes (sig.take 32) R)
    (hord : smul L A = zero)
    (heq : smul (leNat (sig.drop 32)) B = add R (smul (leNat (Spec.Sha2.sha512 (sig.take 32 ++ pk ++ M))) A)) :
    verify m M sig pk = some true := by
  have hpk : pk.length = 32 := by rw [← hA.2]; exact encode_length _
  rw [C44_verify_iff m M sig pk hpk hM]
  refine ⟨hs, lt_trans hS (by norm_num [L]), A, Ed.Decodes.lax hA, ?_⟩
  rw [heq]
  generalize leNat (Spec.Sha2.sha512 (sig.take 32 ++ pk ++ M)) = k
  have hk : smul (k % L) A = smul k A := by
    have h1 : L • (⟨A, hA.1⟩ : Pt25519) = 0 := Subtype.ext (by rw [coe_smul]; exact hord)
    have h2 : (k % L) • (⟨A, hA.1⟩ : Pt25519) = k • ⟨A, hA.1⟩ := by
      conv_rhs => rw [← Nat.div_add_mod k L, add_smul, mul_comm, mul_smul, h1, smul_zero, zero_add]
    have h3 := congrArg Subtype.val h2
    rwa [coe_smul, coe_smul] at h3
  rw [hk, ← hR.2]
  congr 1
  have h4 : (⟨R, hR.1⟩ : Pt25519) + k • ⟨A, hA.1⟩ + -(k • ⟨A, hA.1⟩) = ⟨R, hR.1⟩ := add_neg_cancel_right _ _
  have h5 := congrArg Subtype.val h4
  rw [coe_add, coe_add, coe_neg, coe_smul] at h5
  exact h5.symm

example : ∃ M sig pk, verify .debug M sig pk = some true ∧ verify .debug M (sig ++ [0]) pk ≠ some true := by
  obtain ⟨pk, sig, h1, h2, h3⟩ := C43_sign_verifies .debug [7] (zeros 32) (by decide) (Or.inr (by decide))
  obtain ⟨pk', a, e, hl, -⟩ := C41_gen_pk_point .debug (zeros 32) (by decide)
  rw [h1] at e
  cases e
  refine ⟨_, _, _, h3, fun h => ?_⟩
  rw [C44_verify_iff _ _ _ _ hl (by decide)] at h
  have hs := (C42_sign_canonical .debug _ _ _ (by decide) h2).1
  have := h.1
  simp [hs] at this

/-! ## C45 -/

/-- C45. Malleability: in an accepted signature `S` may be replaced by `S + L` as long as that is below `2^253`. -/
theorem C45_malleable (m : Mode) (M sig pk : Bytes) (hM : M.length + 64 < 2 ^ 61) (h : verify m M sig pk = some true)
    (hS : leNat (sig.drop 32) + L < 2 ^ 253) :
    ∃ sig', sig' ≠ sig ∧ sig' = sig.take 32 ++ toLE 32 (leNat (sig.drop 32) + L) ∧ verify m M sig' pk = some true := by
  have hpk : pk.length = 32 := by
    by_contra hc
    unfold verify at h
    rw [show (32 == pk.length) = false from beq_eq_false_iff_ne.mpr (fun e => hc e.symm)] at h
    cases h
  rw [C44_verify_iff m M sig pk hpk hM] at h
  obtain ⟨h1, h2, A, hA, h3⟩ := h
  have ht : (sig.take 32).length = 32 := by simp [h1]
  have hv : leNat (toLE 32 (leNat (sig.drop 32) + L)) = leNat (sig.drop 32) + L := by
    rw [leNat_toLE, Nat.mod_eq_of_lt (lt_trans hS (by norm_num))]
  refine ⟨_, ?_, rfl, ?_⟩
  · intro e
    have := congrArg (fun l => leNat (l.drop 32)) e
    simp only [List.drop_left' ht, hv] at this
    have := L_pos
    omega
  · rw [C44_verify_iff m M _ pk hpk hM, List.take_left' ht, List.drop_left' ht, hv]
    refine ⟨by simp [h1], hS, A, hA, ?_⟩
    have : smul (leNat (sig.drop 32) + L) B = smul (leNat (sig.drop 32)) B := by
      rw [← coe_smulG, add_smul, order_G, add_zero, coe_smulG]
    rw [this]
    exact h3

/-! ## C46 -/

/-- C46. `verify` panics exactly on public keys of a length other than 32 (messages within the length counter). -/
theorem C46_verify_panics (m : Mode) (M sig pk : Bytes) (hM : m = .release ∨ M.length + 64 < 2 ^ 61) :
    verify m M sig pk = none ↔ pk.length ≠ 32 := by
  constructor
  · intro h hpk
    rcases hM with rfl | hM
    · obtain ⟨n, hn, ln⟩ := hash_release [sig.take 32, pk, M]
      obtain ⟨b, e, -⟩ := verify_core .release (sig := sig) hpk hn ln
      rw [e] at h
      cases h
    · obtain ⟨b, e, -⟩ := verify_spec m (M := M) (sig := sig) hpk hM
      rw [e] at h
      cases h
  · intro h
    unfold verify
    rw [show (32 == pk.length) = false from beq_eq_false_iff_ne.mpr (fun e => h e.symm)]
    rfl

/-- C46. Malformed signatures and keys are rejected: for every message, whatever its length. -/
theorem C46_verify_rejects (m : Mode) (M sig pk : Bytes) (hpk : pk.length = 32)
    (h : sig.length ≠ 64 ∨ 2 ^ 253 ≤ leNat (sig.drop 32) ∨ ∀ A, ¬ DecodesLax pk A) : verify m M sig pk = some false := by
  have ha : assert (32 == pk.length) = some () := by simp [assert, hpk]
  unfold verify
  rw [ha]
  simp only [Option.bind_eq_bind, Option.bind_some]
  split
  · rfl
  · next hs =>
    have hs' : sig.length = 64 ∧ (sig.getD 63 0 &&& 224) = 0 := by tauto
    rw [top_bits hs'.1] at hs'
    have hno : ∀ A, ¬ DecodesLax pk A := by
      rcases h with h | h | h
      · exact absurd hs'.1 h
      · omega
      · exact h
    rcases fromBytesNegate_spec m hpk with ⟨A, g, -, dA, -⟩ | ⟨e1, -⟩
    · exact absurd dA (hno A.1)
    · rw [e1]; rfl

example : verify .debug [1] (zeros 63) (zeros 32) = some false := C46_verify_rejects _ _ _ _ (by decide) (Or.inl (by decide))
example : verify .debug [1] (List.replicate 64 255) (zeros 32) = some false :=
  C46_verify_rejects _ _ _ _ (by decide) (Or.inr (Or.inl (by decide +kernel)))
example : verify .release [1] [] [] = none := (C46_verify_panics _ _ _ _ (Or.inl rfl)).mpr (by decide)

/-! ## C49 -/

open Model.Fe (val)
open Model.Ed25519 (BASE BI D D2 SQRTM1)

/-- C49. The whole table of multiples of the base point: entry `[i][j]` describes `(j + 1) 256^i B` by `y + x`, `y - x` and
`2 d x y`. -/
theorem C49_base_table : BASE.length = 32 ∧ ∀ i, i < 32 → ∃ row, BASE[i]? = some row ∧ row.length = 8 ∧
    ∀ j, j < 8 → ∃ yplusx yminusx xy2d x y, row[j]? = some [yplusx, yminusx, xy2d] ∧ smul ((j + 1) * 256 ^ i) B = (x, y) ∧
      val yplusx = y + x ∧ val yminusx = y - x ∧ val xy2d = 2 * d * x * y := by
  refine ⟨by decide +kernel, fun i hi => ?_⟩
  obtain ⟨row, h1, h2, h3⟩ := base_entry i hi
  refine ⟨row, h1, h2, fun j hj => ?_⟩
  have h4 := h3 j hj
  have hlen : (row.getD j []).length = 3 := by
    have hl : ∀ r ∈ BASE, ∀ e ∈ r, e.length = 3 := by decide +kernel
    rw [List.getD_eq_getElem _ _ (by omega)]
    exact hl row (List.mem_of_getElem? h1) _ (List.getElem_mem _)
  have he : row[j]? = some (row.getD j []) := by rw [List.getD_eq_getElem _ _ (by omega), List.getElem?_eq_getElem]
  rw [he]
  generalize row.getD j [] = e at *
  match e, hlen with
  | [a, b, c], _ =>
    refine ⟨a, b, c, _, _, rfl, (coe_smulG _).symm, h4.p, h4.m, h4.t⟩

/-- C49. The table of odd multiples used by `verify`. -/
theorem C49_bi_table : BI.length = 8 ∧ ∀ j, j < 8 → ∃ yplusx yminusx xy2d x y, BI[j]? = some [yplusx, yminusx, xy2d] ∧
    smul (2 * j + 1) B = (x, y) ∧ val yplusx = y + x ∧ val yminusx = y - x ∧ val xy2d = 2 * d * x * y := by
  refine ⟨by decide +kernel, fun j hj => ?_⟩
  obtain ⟨q, h1, h2⟩ := bi_entry j hj
  have hlen : q.length = 3 := by
    have hl : ∀ e ∈ BI, e.length = 3 := by decide +kernel
    exact hl q (List.mem_of_getElem? h1)
  match q, hlen with
  | [a, b, c], _ => exact ⟨a, b, c, _, _, h1, (coe_smulG _).symm, h2.p, h2.m, h2.t⟩

/-- C49. The constants: `d`, `2 d` and a square root of `-1`. -/
theorem C49_constants : val D = d ∧ val D2 = 2 * d ∧ val SQRTM1 ^ 2 = -1 := ⟨val_D, val_D2, val_SQRTM1⟩

/-- C49. The base point is on the curve, is not the neutral element, and `L` times it is. -/
theorem C49_base_point : onCurve B ∧ B ≠ zero ∧ smul L B = zero := by
  refine ⟨B_on, ?_, ?_⟩
  · intro h
    have h1 := congrArg (fun P : Point => P.1) h
    simp only [B, zero] at h1
    have h2 := congrArg ZMod.val h1
    rw [ZMod.val_zero] at h2
    have h3 : (15112221349535400772501151409588531511454012693041857206046113283949847762202 : F) =
      ((15112221349535400772501151409588531511454012693041857206046113283949847762202 : Nat) : F) := by norm_cast
    rw [h3, ZMod.val_natCast, Nat.mod_eq_of_lt (by norm_num [p25519])] at h2
    omega
  · rw [← coe_smulG, order_G, coe_zero]

/-! ## C52, C53 -/

theorem neg_zero_pt : neg zero = zero := by simp [neg, zero]
theorem smul_zero_pt (n : Nat) : smul n zero = zero := by
  have := coe_smul n 0
  rw [smul_zero, coe_zero] at this
  exact this.symm

/-- C53. A public key that decodes to the neutral element is not rejected, and with it one fixed signature (`R` neutral,
`S = 0`) is accepted for every message. -/
theorem C53_neutral_key_accepts_everything (m : Mode) (M pk : Bytes) (hpk : pk.length = 32) (hM : M.length + 64 < 2 ^ 61)
    (h : DecodesLax pk zero) : verify m M (encode zero ++ zeros 32) pk = some true := by
  rw [C44_verify_iff m M _ pk hpk hM]
  have hl : (encode zero).length = 32 := encode_length _
  rw [List.take_left' hl, List.drop_left' hl]
  refine ⟨by simp [hl], by rw [leNat_zeros]; norm_num, zero, h, ?_⟩
  rw [leNat_zeros, smul_zero_pt, neg_zero_pt]
  simp only [smul]
  simp [add, zero]

/-- C53 applies to the (canonical) encoding of the neutral element. -/
example : Decodes (encode zero) zero ∧ (encode zero).length = 32 ∧ DecodesLax (encode zero) zero :=
  ⟨⟨zero_on, rfl⟩, encode_length _, Ed.Decodes.lax ⟨zero_on, rfl⟩⟩

theorem val_zero_pt : (zero : Point).2 = ((1 : Nat) : F) := by simp [zero]

/-- The two non-canonical encodings of the neutral element used in C52: `y = 1` with the sign bit set, and `y = p + 1`. -/
def signedNeutral : Bytes := toLE 32 (1 + 2 ^ 255)
/-- See `signedNeutral`. -/
def wrappedNeutral : Bytes := toLE 32 (p25519 + 1)

theorem signedNeutral_val : leNat signedNeutral = 1 + 2 ^ 255 := by
  unfold signedNeutral; rw [leNat_toLE, Nat.mod_eq_of_lt (by norm_num)]
theorem wrappedNeutral_val : leNat wrappedNeutral = 2 ^ 255 - 18 := by
  unfold wrappedNeutral; rw [leNat_toLE, p25519, Nat.mod_eq_of_lt (by norm_num)]; norm_num

/-- C52. Public keys are not checked for canonical form: these two byte strings are the encoding of no point, so RFC 8032
decoding fails on them, but `verify` takes both for the neutral element, and accepts signatures under them. -/
theorem C52_noncanonical_keys_accepted (m : Mode) (M : Bytes) (hM : M.length + 64 < 2 ^ 61) :
    (∀ P, ¬ Decodes signedNeutral P) ∧ (∀ P, ¬ Decodes wrappedNeutral P) ∧
    (∃ sig, verify m M sig signedNeutral = some true) ∧ (∃ sig, verify m M sig wrappedNeutral = some true) := by
  have hp2 : p25519 < 2 ^ 255 := by norm_num [p25519]
  refine ⟨?_, ?_, ⟨_, C53_neutral_key_accepts_everything m M _ (by simp [signedNeutral]) hM ?_⟩,
    ⟨_, C53_neutral_key_accepts_everything m M _ (by simp [wrappedNeutral]) hM ?_⟩⟩
  · rintro ⟨x, y⟩ ⟨h1, h2⟩
    have h3 := encode_val (x, y)
    rw [h2, signedNeutral_val] at h3
    simp only at h3
    have hy := ZMod.val_lt y
    have hpar : x.val % 2 < 2 := Nat.mod_lt _ (by norm_num)
    have hy1 : y.val = 1 ∧ x.val % 2 = 1 := by omega
    have hy2 : y = 1 := by
      have := ZMod.natCast_zmod_val y
      rw [hy1.1] at this
      rw [← this]; norm_num
    rw [onCurve_iff', hy2] at h1
    have hx : x = 0 := by
      have hv := v_ne 1
      have : x ^ 2 * (d * 1 ^ 2 + 1) = 0 := by rw [h1]; ring
      exact pow_eq_zero_iff (by norm_num) |>.mp ((mul_eq_zero.mp this).resolve_right hv)
    rw [hx, ZMod.val_zero] at hy1
    omega
  · rintro ⟨x, y⟩ ⟨h1, h2⟩
    have h3 := encode_val (x, y)
    rw [h2, wrappedNeutral_val] at h3
    simp only at h3
    have hy := ZMod.val_lt y
    have hpar : x.val % 2 < 2 := Nat.mod_lt _ (by norm_num)
    have hp3 : p25519 = 2 ^ 255 - 19 := rfl
    omega
  · refine ⟨zero_on, ?_, Or.inl rfl⟩
    rw [signedNeutral_val, val_zero_pt]
    congr 1
  · refine ⟨zero_on, ?_, Or.inl rfl⟩
    rw [wrappedNeutral_val, val_zero_pt]
    refine cast_eq ?_
    rw [p25519]
    norm_num

/-- C45 is not vacuous: a valid signature with `S = 0`. -/
example : verify .debug [5] (encode zero ++ zeros 32) (encode zero) = some true ∧
    leNat ((encode zero ++ zeros 32).drop 32) + L < 2 ^ 253 := by
  refine ⟨C53_neutral_key_accepts_everything .debug [5] _ (encode_length _) (by decide) (Ed.Decodes.lax ⟨zero_on, rfl⟩), ?_⟩
  rw [List.drop_left' (encode_length _), leNat_zeros]
  norm_num [L]

/-! ## Further concrete cases -/

example : Model.Ed25519.sign .release [1] (zeros 33) = none := C42_sign_panics .release _ _ (by decide)

/-- What the encoding of the neutral element decodes to. -/
example (A : Point) (h : DecodesLax (encode zero) A) : A = zero :=
  C44_decode_unique _ _ _ h (Ed.Decodes.lax ⟨zero_on, rfl⟩)

theorem add_zero_zero : add zero zero = zero := by simp [add, zero]

/-- `S = 0`, `R` and `A` neutral satisfy the equation of RFC 8032, for every message. -/
example (M : Bytes) (hM : M.length + 64 < 2 ^ 61) :
    verify .debug M (encode zero ++ zeros 32) (encode zero) = some true := by
  have hz : Decodes (encode zero) zero := ⟨zero_on, rfl⟩
  have hl : (encode zero).length = 32 := encode_length _
  have h1 : (encode zero ++ zeros 32).take 32 = encode zero := by rw [List.take_append_of_le_length (by omega), List.take_of_length_le (by omega)]
  have h2 : (encode zero ++ zeros 32).drop 32 = zeros 32 := by rw [List.drop_append, List.drop_eq_nil_of_le (by omega), hl]; rfl
  have h3 : leNat (zeros 32) = 0 := by decide +kernel
  refine C44_rfc8032_accepted .debug M _ _ hM zero zero (by simp [hl, zeros]) (by rw [h2, h3]; norm_num [L]) hz (by rw [h1]; exact hz)
    ?_ ?_
  · exact smul_zero_pt L
  · rw [h2, h3, smul_zero_pt, add_zero_zero]; rfl

example : (∃ sig, verify .debug [5] sig signedNeutral = some true) ∧ ∃ sig, verify .debug [5] sig wrappedNeutral = some true :=
  (C52_noncanonical_keys_accepted .debug [5] (by decide)).2.2

end CryptoPure.Props.Ed25519
