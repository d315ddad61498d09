import Verif.Proofs.EdOrder
import Verif.Props.Ed25519

/-! # C57–C60: Ed25519 and the order of the group -/

namespace CryptoPure.Props.Ed25519
open Model Spec Spec.Ed25519 CryptoPure.Ed
open Model.Ed25519 (genPk verify)

theorem coe_G : (G : Point) = B := rfl

/-- Points as group elements: equations between points of the curve. -/
theorem lift_eq {P Q : Pt25519} : P.1 = Q.1 ↔ P = Q := ⟨Subtype.ext, congrArg _⟩

theorem mod_8L (k : Nat) (A : Pt25519) : 8 • (k % L) • A = 8 • k • A := by
  conv_rhs => rw [← Nat.div_add_mod k L, add_smul, smul_add, ← mul_smul, ← mul_assoc, mul_comm (8 * L), mul_smul, killed8L, smul_zero,
    zero_add]

/-! ## C57 -/

/-- C57. The equation decided by `verify`, for every key and signature, with `R` decoded: `[S]B = R + [k mod L]A`. -/
theorem C57_verify_equation (m : Mode) (M sig pk : Bytes) (hpk : pk.length = 32) (hM : M.length + 64 < 2 ^ 61) :
    verify m M sig pk = some true ↔
      sig.length = 64 ∧ leNat (sig.drop 32) < 2 ^ 253 ∧ ∃ A R, DecodesLax pk A ∧ Decodes (sig.take 32) R ∧
        smul (leNat (sig.drop 32)) B = add R (smul (leNat (Spec.Sha2.sha512 (sig.take 32 ++ pk ++ M)) % L) A) := by
  rw [C44_verify_iff m M sig pk hpk hM]
  generalize leNat (Spec.Sha2.sha512 (sig.take 32 ++ pk ++ M)) % L = k
  generalize leNat (sig.drop 32) = S
  constructor
  · rintro ⟨h1, h2, A, hA, h3⟩
    refine ⟨h1, h2, A, _, hA, ⟨?_, h3.symm⟩, ?_⟩
    · have := (S • G + -(k • (⟨A, hA.1⟩ : Pt25519))).2
      simp only [coe_add, coe_neg, coe_smul, coe_G] at this
      exact this
    · have h4 : S • G = S • G + -(k • (⟨A, hA.1⟩ : Pt25519)) + k • ⟨A, hA.1⟩ := by abel
      have h5 := congrArg Subtype.val h4
      simp only [coe_add, coe_neg, coe_smul, coe_G] at h5
      exact h5
  · rintro ⟨h1, h2, A, R, hA, hR, h3⟩
    refine ⟨h1, h2, A, hA, ?_⟩
    rw [← hR.2, h3]
    congr 1
    have h4 : (⟨R, hR.1⟩ : Pt25519) = ⟨R, hR.1⟩ + k • (⟨A, hA.1⟩ : Pt25519) + -(k • (⟨A, hA.1⟩ : Pt25519)) := by abel
    have h5 := congrArg Subtype.val h4
    rw [coe_add, coe_add, coe_neg, coe_smul] at h5
    exact h5

/-- C57. Whatever `verify` accepts satisfies the group equation of RFC 8032 section 5.1.7 (with cofactor, and with the
hash not reduced), for every public key, including those of small or mixed order. -/
theorem C57_accepted_satisfies_rfc_equation (m : Mode) (M sig pk : Bytes) (hpk : pk.length = 32) (hM : M.length + 64 < 2 ^ 61)
    (h : verify m M sig pk = some true) : ∃ A R, DecodesLax pk A ∧ Decodes (sig.take 32) R ∧
      smul 8 (smul (leNat (sig.drop 32)) B) =
        add (smul 8 R) (smul 8 (smul (leNat (Spec.Sha2.sha512 (sig.take 32 ++ pk ++ M))) A)) := by
  obtain ⟨-, -, A, R, hA, hR, h3⟩ := (C57_verify_equation m M sig pk hpk hM).mp h
  refine ⟨A, R, hA, hR, ?_⟩
  revert h3
  generalize leNat (Spec.Sha2.sha512 (sig.take 32 ++ pk ++ M)) = k
  generalize leNat (sig.drop 32) = S
  intro h3
  have h4 : S • G = (⟨R, hR.1⟩ : Pt25519) + (k % L) • ⟨A, hA.1⟩ := Subtype.ext (by
    simp only [coe_add, coe_smul, coe_G]; exact h3)
  have h5 : 8 • S • G = 8 • (⟨R, hR.1⟩ : Pt25519) + 8 • k • (⟨A, hA.1⟩ : Pt25519) := by rw [h4, smul_add, mod_8L]
  have h6 := congrArg Subtype.val h5
  simp only [coe_add, coe_smul, coe_G] at h6
  exact h6

/-- C57. With a canonically encoded key and `S < L`, an accepted signature is valid in the sense of RFC 8032. -/
theorem C57_accepted_valid (m : Mode) (M sig pk : Bytes) (hM : M.length + 64 < 2 ^ 61) (h : verify m M sig pk = some true)
    (hpk : ∃ A, Decodes pk A) (hS : leNat (sig.drop 32) < L) : Valid M sig pk := by
  obtain ⟨A, hA⟩ := hpk
  have hl : pk.length = 32 := by rw [← hA.2]; exact encode_length _
  have h1 := ((C57_verify_equation m M sig pk hl hM).mp h).1
  obtain ⟨A', R, hA', hR, h2⟩ := C57_accepted_satisfies_rfc_equation m M sig pk hl hM h
  obtain rfl := decodesLax_unique hA' (Ed.Decodes.lax hA)
  exact ⟨h1, hS, A', R, hA, hR, h2⟩

theorem cancel8 {X Y : Pt25519} (hX : L • X = 0) (hY : L • Y = 0) (h : 8 • X = 8 • Y) : X = Y := by
  have h1 : 8 • (X - Y) = 0 := by rw [smul_sub, h, sub_self]
  have h2 : L • (X - Y) = 0 := by rw [smul_sub, hX, hY, sub_self]
  rw [← addOrderOf_dvd_iff_nsmul_eq_zero] at h1 h2
  have h3 : Nat.gcd 8 L = 1 := by
    rw [show 8 = 2 ^ 3 by norm_num]
    exact Nat.Coprime.pow_left _ ((Nat.coprime_primes Nat.prime_two Ed.prime_L).mpr (by norm_num [L]))
  have h4 := Nat.dvd_gcd h1 h2
  rw [h3, Nat.dvd_one, AddMonoid.addOrderOf_eq_one_iff, sub_eq_zero] at h4
  exact h4

/-- C57. Conversely a signature valid in the sense of RFC 8032, whose `R` and whose key are in the subgroup generated by the base
point (as in every signature and key made by this library), is accepted. -/
theorem C57_valid_accepted (m : Mode) (M sig pk : Bytes) (hM : M.length + 64 < 2 ^ 61) (h : Valid M sig pk)
    (hA : ∀ A, Decodes pk A → smul L A = zero) (hR : ∀ R, Decodes (sig.take 32) R → smul L R = zero) :
    verify m M sig pk = some true := by
  obtain ⟨h1, h2, A, R, dA, dR, h3⟩ := h
  refine C44_rfc8032_accepted m M sig pk hM A R h1 h2 dA dR (hA A dA) ?_
  have hA' : L • (⟨A, dA.1⟩ : Pt25519) = 0 := Subtype.ext (by rw [coe_smul]; exact hA A dA)
  have hR' : L • (⟨R, dR.1⟩ : Pt25519) = 0 := Subtype.ext (by rw [coe_smul]; exact hR R dR)
  revert h3
  generalize leNat (Spec.Sha2.sha512 (sig.take 32 ++ pk ++ M)) = k
  generalize leNat (sig.drop 32) = S
  intro h3
  have h4 : 8 • S • G = 8 • ((⟨R, dR.1⟩ : Pt25519) + k • ⟨A, dA.1⟩) := Subtype.ext (by
    simp only [smul_add, coe_add, coe_smul, coe_G]; exact h3)
  have h5 := cancel8 (by rw [smul_comm, order_G, smul_zero]) (by rw [smul_add, hR', smul_comm, hA', smul_zero, add_zero]) h4
  have h6 := congrArg Subtype.val h5
  simp only [coe_add, coe_smul, coe_G] at h6
  exact h6

/-- C57. Every signature this library makes is valid in the sense of RFC 8032. -/
theorem C57_signatures_valid (m : Mode) (M sk pk sig : Bytes) (hM : M.length + 64 < 2 ^ 61) (hpk : genPk m sk = some pk)
    (hsig : Model.Ed25519.sign m M sk = some sig) : Valid M sig pk := by
  have hl : sk.length = 32 := by
    by_contra hc
    rw [(C41_gen_pk_panics m sk).mpr hc] at hpk
    cases hpk
  obtain ⟨pk', sig', e1, e2, e3⟩ := C43_sign_verifies m M sk hl (Or.inr hM)
  rw [hpk] at e1; rw [hsig] at e2
  cases e1; cases e2
  obtain ⟨pk'', a, e4, -, -, -, -, hd, -⟩ := C41_gen_pk_point m sk hl
  rw [hpk] at e4
  cases e4
  exact C57_accepted_valid m M sig pk hM e3 ⟨_, hd⟩ (C42_sign_canonical m M sk sig hM hsig).2.1

example : ∃ M sig pk, Valid M sig pk := by
  obtain ⟨pk, sig, h1, h2, h3⟩ := C43_sign_verifies .debug [7] (zeros 32) (by decide) (Or.inr (by decide))
  exact ⟨_, _, _, C57_signatures_valid .debug [7] (zeros 32) pk sig (by decide) h1 h2⟩

/-! ## C58 -/

/-- C58. For a message, a key and a first half `R`, the accepted second halves `S` agree modulo `L`. -/
theorem C58_S_determined_mod_L (m : Mode) (M pk sig sig' : Bytes) (hM : M.length + 64 < 2 ^ 61) (hpk : pk.length = 32)
    (h : verify m M sig pk = some true) (h' : verify m M sig' pk = some true) (hR : sig.take 32 = sig'.take 32) :
    leNat (sig.drop 32) % L = leNat (sig'.drop 32) % L := by
  obtain ⟨-, -, A, R, hA, hdR, h3⟩ := (C57_verify_equation m M sig pk hpk hM).mp h
  obtain ⟨-, -, A', R', hA', hdR', h3'⟩ := (C57_verify_equation m M sig' pk hpk hM).mp h'
  obtain rfl := decodesLax_unique hA hA'
  rw [← hR] at hdR' h3'
  obtain rfl := encode_inj hdR.1 hdR'.1 (hdR.2.trans hdR'.2.symm)
  rw [← h3'] at h3
  rw [← coe_smulG, ← coe_smulG, lift_eq, smulG_eq_iff] at h3
  exact h3

/-- C58. So at most one `S` below `L` is accepted. -/
theorem C58_canonical_S_unique (m : Mode) (M pk sig sig' : Bytes) (hM : M.length + 64 < 2 ^ 61) (hpk : pk.length = 32)
    (h : verify m M sig pk = some true) (h' : verify m M sig' pk = some true) (hR : sig.take 32 = sig'.take 32)
    (hS : leNat (sig.drop 32) < L) (hS' : leNat (sig'.drop 32) < L) : sig = sig' := by
  have h1 := C58_S_determined_mod_L m M pk sig sig' hM hpk h h' hR
  rw [Nat.mod_eq_of_lt hS, Nat.mod_eq_of_lt hS'] at h1
  have l1 := ((C57_verify_equation m M sig pk hpk hM).mp h).1
  have l2 := ((C57_verify_equation m M sig' pk hpk hM).mp h').1
  rw [← List.take_append_drop 32 sig, ← List.take_append_drop 32 sig', hR]
  congr 1
  have e1 := toLE_leNat (sig.drop 32)
  have e2 := toLE_leNat (sig'.drop 32)
  rw [List.length_drop, l1] at e1
  rw [List.length_drop, l2] at e2
  rw [← e1, ← e2, h1]

/-- The two signatures of C45 are related as in C58. -/
example : ∃ sig sig' pk, sig ≠ sig' ∧ sig.take 32 = sig'.take 32 ∧ verify .debug [5] sig pk = some true ∧
    verify .debug [5] sig' pk = some true := by
  have h := C53_neutral_key_accepts_everything .debug [5] _ (encode_length _) (by decide) (Ed.Decodes.lax ⟨zero_on, rfl⟩)
  obtain ⟨sig', h1, h2, h3⟩ := C45_malleable .debug [5] _ _ (by decide) h (by
    rw [List.drop_left' (encode_length _), leNat_zeros]; norm_num [L])
  refine ⟨_, sig', _, h1.symm, ?_, h, h3⟩
  rw [h2, List.take_left' (l₁ := List.take 32 (encode zero ++ zeros 32)) (by
    rw [List.take_left' (encode_length _)]; exact encode_length _)]

/-! ## C59 -/

/-- C59. Two secret keys have the same public key exactly when their secret scalars are equal. -/
theorem C59_gen_pk_collisions (m : Mode) (sk sk' : Bytes) (h : sk.length = 32) (h' : sk'.length = 32) :
    genPk m sk = genPk m sk' ↔ secretScalar sk = secretScalar sk' := by
  rw [C41_gen_pk_rfc8032 m sk h, C41_gen_pk_rfc8032 m sk' h', Option.some_inj]
  constructor
  · intro he
    unfold publicKey at he
    have h1 := encode_inj (decodes_smul (secretScalar sk)).1 (decodes_smul (secretScalar sk')).1 he
    rw [← coe_smulG, ← coe_smulG, lift_eq, smulG_eq_iff] at h1
    have hL : L = 2 ^ 252 + 27742317777372353535851937790883648493 := rfl
    obtain ⟨s, hs, s1, s2⟩ : ∃ s, secretScalar sk = 8 * s ∧ 2 ^ 251 ≤ s ∧ s < 2 ^ 252 :=
      ⟨leNat ((Spec.Sha2.sha512 sk).take 32) % 2 ^ 254 / 8 + 2 ^ 251, by unfold secretScalar; omega, by omega, by omega⟩
    obtain ⟨t, ht, t1, t2⟩ : ∃ t, secretScalar sk' = 8 * t ∧ 2 ^ 251 ≤ t ∧ t < 2 ^ 252 :=
      ⟨leNat ((Spec.Sha2.sha512 sk').take 32) % 2 ^ 254 / 8 + 2 ^ 251, by unfold secretScalar; omega, by omega, by omega⟩
    rw [hs, ht] at h1 ⊢
    have h2 : 8 * s ≡ 8 * t [MOD L] := h1
    have h3 : Nat.gcd L 8 = 1 := by
      rw [Nat.gcd_comm, show 8 = 2 ^ 3 by norm_num]
      exact Nat.Coprime.pow_left _ ((Nat.coprime_primes Nat.prime_two Ed.prime_L).mpr (by norm_num [L]))
    have h4 := Nat.ModEq.cancel_left_of_coprime h3 h2
    have h5 : s = t := Nat.ModEq.eq_of_lt_of_lt h4 (by omega) (by omega)
    rw [h5]
  · intro he
    unfold publicKey
    rw [he]

/-! ## C60 -/

/-- C60. A public key made by `gen_pk` decodes to a point of order exactly `L`: it is never a key of small order, for which signatures
could be valid for many messages (C53). -/
theorem C60_gen_pk_order (m : Mode) (sk pk : Bytes) (h : genPk m sk = some pk) :
    ∃ A, Decodes pk A ∧ ∀ n, smul n A = zero ↔ L ∣ n := by
  have hl : sk.length = 32 := by
    by_contra hc
    rw [(C41_gen_pk_panics m sk).mpr hc] at h
    cases h
  rw [C41_gen_pk_rfc8032 m sk hl] at h
  cases h
  refine ⟨_, decodes_smul (secretScalar sk), fun n => ?_⟩
  rw [smul_smul', ← coe_smulG, ← coe_zero, lift_eq, ← addOrderOf_dvd_iff_nsmul_eq_zero, addOrderOf_G]
  have hL : L = 2 ^ 252 + 27742317777372353535851937790883648493 := rfl
  obtain ⟨s, hs, s1, s2⟩ : ∃ s, secretScalar sk = 8 * s ∧ 2 ^ 251 ≤ s ∧ s < 2 ^ 252 :=
    ⟨leNat ((Spec.Sha2.sha512 sk).take 32) % 2 ^ 254 / 8 + 2 ^ 251, by unfold secretScalar; omega, by omega, by omega⟩
  have hnd : ¬ L ∣ secretScalar sk := by
    rw [hs]
    intro hd
    rcases (Nat.Prime.dvd_mul Ed.prime_L).mp hd with hd | hd
    · exact absurd (Nat.le_of_dvd (by norm_num) hd) (by omega)
    · exact absurd (Nat.le_of_dvd (by omega) hd) (by omega)
  constructor
  · intro hd
    rcases (Nat.Prime.dvd_mul Ed.prime_L).mp hd with hd | hd
    · exact hd
    · exact absurd hd hnd
  · intro hd
    exact Dvd.dvd.mul_right hd _

/-- C60. Under such a key, `verify` is the strict equation `[S]B = R + [k]A` of RFC 8032 with `S < 2^253`; moreover `R` is then in the
subgroup generated by the base point. -/
theorem C60_verify_under_honest_key (m : Mode) (M sig sk pk : Bytes) (hM : M.length + 64 < 2 ^ 61) (h : genPk m sk = some pk) :
    verify m M sig pk = some true ↔ sig.length = 64 ∧ leNat (sig.drop 32) < 2 ^ 253 ∧ ∃ A R, Decodes pk A ∧
      Decodes (sig.take 32) R ∧ smul L R = zero ∧
      smul (leNat (sig.drop 32)) B = add R (smul (leNat (Spec.Sha2.sha512 (sig.take 32 ++ pk ++ M))) A) := by
  obtain ⟨A, hA, hord⟩ := C60_gen_pk_order m sk pk h
  have hl : pk.length = 32 := by rw [← hA.2]; exact encode_length _
  rw [C57_verify_equation m M sig pk hl hM]
  generalize leNat (Spec.Sha2.sha512 (sig.take 32 ++ pk ++ M)) = k
  generalize leNat (sig.drop 32) = S
  have hLA : L • (⟨A, hA.1⟩ : Pt25519) = 0 := Subtype.ext (by rw [coe_smul]; exact (hord L).mpr dvd_rfl)
  have hk : smul (k % L) A = smul k A := by
    have h2 : (k % L) • (⟨A, hA.1⟩ : Pt25519) = k • ⟨A, hA.1⟩ := by
      conv_rhs => rw [← Nat.div_add_mod k L, add_smul, mul_comm, mul_smul, hLA, smul_zero, zero_add]
    have h3 := congrArg Subtype.val h2
    rwa [coe_smul, coe_smul] at h3
  constructor
  · rintro ⟨h1, h2, A', R, hA', hR, h3⟩
    obtain rfl := decodesLax_unique hA' (Ed.Decodes.lax hA)
    rw [hk] at h3
    refine ⟨h1, h2, A', R, hA, hR, ?_, h3⟩
    have h4 : S • G = (⟨R, hR.1⟩ : Pt25519) + k • ⟨A', hA.1⟩ := Subtype.ext (by
      simp only [coe_add, coe_smul, coe_G]; exact h3)
    have h5 : (⟨R, hR.1⟩ : Pt25519) = S • G - k • ⟨A', hA.1⟩ := by rw [h4]; abel
    have h6 : L • (⟨R, hR.1⟩ : Pt25519) = 0 := by
      rw [h5, smul_sub, smul_comm, order_G, smul_zero, smul_comm, hLA, smul_zero, sub_zero]
    have h7 := congrArg Subtype.val h6
    rwa [coe_smul] at h7
  · rintro ⟨h1, h2, A', R, hA', hR, -, h3⟩
    obtain rfl := decodesLax_unique (Ed.Decodes.lax hA') (Ed.Decodes.lax hA)
    rw [← hk] at h3
    exact ⟨h1, h2, A', R, Ed.Decodes.lax hA, hR, h3⟩

example : ∃ sig pk, genPk .debug (zeros 32) = some pk ∧ verify .debug [1] sig pk = some true := by
  obtain ⟨pk, sig, h1, -, h3⟩ := C43_sign_verifies .debug [1] (zeros 32) (by decide) (Or.inr (by decide))
  exact ⟨sig, pk, h1, h3⟩

/-! ## Further concrete cases -/

/-- A genuine signature meets the hypotheses of C57 (both directions), C58 and C60. -/
example (M : Bytes) (hM : M.length + 64 < 2 ^ 61) : ∃ pk sig, genPk .debug (zeros 32) = some pk ∧ pk.length = 32 ∧
    Model.Ed25519.sign .debug M (zeros 32) = some sig ∧ verify .debug M sig pk = some true ∧ (∃ A, Decodes pk A) ∧
    leNat (sig.drop 32) < L ∧ Valid M sig pk ∧ (∀ A, Decodes pk A → smul L A = zero) ∧ verify .release M sig pk = some true := by
  obtain ⟨pk, a, hg, hl, -, -, -, hd, ho⟩ := C41_gen_pk_point .debug (zeros 32) (by decide)
  obtain ⟨pk', sig, hg', hs, hv⟩ := C43_sign_verifies .debug M (zeros 32) (by decide) (.inr hM)
  rw [hg] at hg'; cases hg'
  have hc := C42_sign_canonical .debug M (zeros 32) sig hM hs
  have hval := C57_accepted_valid .debug M sig pk hM hv ⟨_, hd⟩ hc.2.1
  have hA : ∀ A, Decodes pk A → smul L A = zero := fun A h => by
    rw [C44_decode_unique pk A _ (Ed.Decodes.lax h) (Ed.Decodes.lax hd)]; exact ho
  refine ⟨pk, sig, hg, hl, hs, hv, ⟨_, hd⟩, hc.2.1, hval, hA, ?_⟩
  refine C57_valid_accepted .release M sig pk hM hval hA fun R hR => ?_
  obtain ⟨-, -, A', R', -, hR', hord, -⟩ := (C60_verify_under_honest_key .debug M sig (zeros 32) pk hM hg).mp hv
  rw [C44_decode_unique _ R R' (Ed.Decodes.lax hR) (Ed.Decodes.lax hR')]
  exact hord

example (sig pk : Bytes) (hpk : pk.length = 32) (h : verify .debug [1] sig pk = some true) :=
  C57_accepted_satisfies_rfc_equation .debug [1] sig pk hpk (by decide) h

example : genPk .debug (zeros 32) = genPk .debug (List.replicate 32 7) ↔
    secretScalar (zeros 32) = secretScalar (List.replicate 32 7) := C59_gen_pk_collisions .debug _ _ (by decide) (by decide)

example : ∃ pk A, genPk .debug (zeros 32) = some pk ∧ Decodes pk A ∧ ∀ n, smul n A = zero ↔ L ∣ n := by
  have hg := C41_gen_pk_rfc8032 .debug (zeros 32) (by decide)
  obtain ⟨A, h⟩ := C60_gen_pk_order .debug _ _ hg
  exact ⟨_, A, hg, h⟩

end CryptoPure.Props.Ed25519
