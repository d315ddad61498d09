import Verif.Props.Ed25519Order

/-! # C74–C76: what an Ed25519 signature binds, repeated nonces, and the cofactor -/

namespace CryptoPure.Props.Ed25519
open Model Spec Spec.Ed25519 CryptoPure.Ed
open Model.Ed25519 (genPk verify)

/-! ## C74 -/

/-- A point that 8 does not kill has order divisible by `L`. -/
theorem L_dvd_of_smul {A : Pt25519} (h8 : 8 • A ≠ 0) {n : Int} (hn : n • A = 0) : (L : Int) ∣ n := by
  have hA : L • (8 • A) = 0 := by rw [← mul_smul, mul_comm]; exact killed8L A
  have : Fact L.Prime := ⟨Ed.prime_L⟩
  have ho : addOrderOf (8 • A) = L := addOrderOf_eq_prime hA h8
  rw [← ho, addOrderOf_dvd_iff_zsmul_eq_zero, smul_comm, hn, smul_zero]

/-- C74. Under a key that is not of small order, one signature is accepted for two messages exactly when their hashes (of
`R || key || message`) agree modulo `L`. -/
theorem C74_message_bound (m : Mode) (M M' sig pk : Bytes) (hpk : pk.length = 32) (hM : M.length + 64 < 2 ^ 61)
    (hM' : M'.length + 64 < 2 ^ 61) (hA : ∀ A, DecodesLax pk A → smul 8 A ≠ zero)
    (h : verify m M sig pk = some true) :
    verify m M' sig pk = some true ↔ leNat (Spec.Sha2.sha512 (sig.take 32 ++ pk ++ M)) % L =
      leNat (Spec.Sha2.sha512 (sig.take 32 ++ pk ++ M')) % L := by
  rw [C57_verify_equation m M sig pk hpk hM] at h
  rw [C57_verify_equation m M' sig pk hpk hM']
  revert h
  generalize leNat (Spec.Sha2.sha512 (sig.take 32 ++ pk ++ M)) = k
  generalize leNat (Spec.Sha2.sha512 (sig.take 32 ++ pk ++ M')) = k'
  generalize leNat (sig.drop 32) = S
  rintro ⟨h1, h2, A, R, dA, dR, h3⟩
  constructor
  · rintro ⟨-, -, A', R', dA', dR', h3'⟩
    obtain rfl := decodesLax_unique dA dA'
    obtain rfl := encode_inj dR.1 dR'.1 (dR.2.trans dR'.2.symm)
    rw [h3] at h3'
    have h8 : 8 • (⟨A, dA.1⟩ : Pt25519) ≠ 0 := fun h => hA A dA (by
      have := congrArg Subtype.val h
      rwa [coe_smul] at this)
    have h4 : (⟨R, dR.1⟩ : Pt25519) + (k % L) • ⟨A, dA.1⟩ = ⟨R, dR.1⟩ + (k' % L) • ⟨A, dA.1⟩ := Subtype.ext (by
      simp only [coe_add, coe_smul]; exact h3')
    have h5 := add_left_cancel h4
    have h6 : (((k % L : Nat) : Int) - ((k' % L : Nat) : Int)) • (⟨A, dA.1⟩ : Pt25519) = 0 := by
      rw [sub_smul, natCast_zsmul, natCast_zsmul, h5, sub_self]
    have h7 := L_dvd_of_smul h8 h6
    have hL : 0 < L := by norm_num [L]
    have b1 := Nat.mod_lt k hL
    have b2 := Nat.mod_lt k' hL
    have := Int.eq_zero_of_abs_lt_dvd h7 (by rw [abs_lt]; constructor <;> omega)
    omega
  · intro hk
    rw [hk] at h3
    exact ⟨h1, h2, A, R, dA, dR, h3⟩

/-- C74. Keys made by `gen_pk` qualify. -/
theorem C74_honest_key (m m' : Mode) (M M' sig sk pk : Bytes) (hg : genPk m' sk = some pk) (hM : M.length + 64 < 2 ^ 61)
    (hM' : M'.length + 64 < 2 ^ 61) (h : verify m M sig pk = some true) (h' : verify m M' sig pk = some true) :
    leNat (Spec.Sha2.sha512 (sig.take 32 ++ pk ++ M)) % L = leNat (Spec.Sha2.sha512 (sig.take 32 ++ pk ++ M')) % L := by
  obtain ⟨A, dA, ho⟩ := C60_gen_pk_order m' sk pk hg
  have hl : pk.length = 32 := by rw [← dA.2]; exact encode_length _
  refine (C74_message_bound m M M' sig pk hl hM hM' ?_ h).mp h'
  intro A' dA' h8
  obtain rfl := decodesLax_unique dA' (Ed.Decodes.lax dA)
  have := (ho 8).mp h8
  have := Nat.le_of_dvd (by norm_num) this
  norm_num [L] at this

/-- C74. In particular no two different messages get the same signature, unless the hash collides modulo `L`. -/
theorem C74_signatures_differ (m : Mode) (M M' sk sig : Bytes) (hM : M.length + 64 < 2 ^ 61) (hM' : M'.length + 64 < 2 ^ 61)
    (h : Model.Ed25519.sign m M sk = some sig) (h' : Model.Ed25519.sign m M' sk = some sig) :
    ∃ pk, genPk m sk = some pk ∧ leNat (Spec.Sha2.sha512 (sig.take 32 ++ pk ++ M)) % L =
      leNat (Spec.Sha2.sha512 (sig.take 32 ++ pk ++ M')) % L := by
  have hl : sk.length = 32 := by
    by_contra hc
    rw [C42_sign_panics m M sk hc] at h
    cases h
  obtain ⟨pk, s, e1, e2, e3⟩ := C43_sign_verifies m M sk hl (Or.inr hM)
  obtain ⟨pk', s', e1', e2', e3'⟩ := C43_sign_verifies m M' sk hl (Or.inr hM')
  rw [h] at e2; rw [h'] at e2'; rw [e1] at e1'
  cases e1'; cases e2; cases e2'
  exact ⟨pk, e1, C74_honest_key m m M M' sig sk pk e1 hM hM' e3 e3'⟩

/-- Without the hypothesis on the key the binding fails for every pair of messages (C53). -/
example (M M' : Bytes) (hM : M.length + 64 < 2 ^ 61) (hM' : M'.length + 64 < 2 ^ 61) : ∃ sig pk,
    verify .debug M sig pk = some true ∧ verify .debug M' sig pk = some true :=
  ⟨_, _, C53_neutral_key_accepts_everything .debug M _ (encode_length _) hM (Ed.Decodes.lax ⟨zero_on, rfl⟩),
    C53_neutral_key_accepts_everything .debug M' _ (encode_length _) hM' (Ed.Decodes.lax ⟨zero_on, rfl⟩)⟩

/-! ## C75 -/

theorem sign_eq {m : Mode} {M sk sig : Bytes} (hM : M.length + 64 < 2 ^ 61) (h : Model.Ed25519.sign m M sk = some sig) :
    sk.length = 32 ∧ sig = Spec.Ed25519.sign M sk := by
  have hl : sk.length = 32 := by
    by_contra hc
    rw [C42_sign_panics m M sk hc] at h
    cases h
  rw [C42_sign_rfc8032 m M sk hl hM] at h
  exact ⟨hl, (Option.some.inj h).symm⟩

/-- C75. Two signatures under one key begin with the same `R` exactly when the nonces, the hashes of the second half of the
expanded key and the message, agree modulo `L`. -/
theorem C75_nonce_repeats_iff (m m' : Mode) (M M' sk sig sig' : Bytes) (hM : M.length + 64 < 2 ^ 61) (hM' : M'.length + 64 < 2 ^ 61)
    (h : Model.Ed25519.sign m M sk = some sig) (h' : Model.Ed25519.sign m' M' sk = some sig') :
    sig.take 32 = sig'.take 32 ↔ leNat (Spec.Sha2.sha512 ((Spec.Sha2.sha512 sk).drop 32 ++ M)) % L =
      leNat (Spec.Sha2.sha512 ((Spec.Sha2.sha512 sk).drop 32 ++ M')) % L := by
  obtain ⟨-, rfl⟩ := sign_eq hM h
  obtain ⟨-, rfl⟩ := sign_eq hM' h'
  unfold Spec.Ed25519.sign
  simp only
  rw [List.take_left' (encode_length _), List.take_left' (encode_length _)]
  generalize leNat (Spec.Sha2.sha512 ((Spec.Sha2.sha512 sk).drop 32 ++ M)) = r
  generalize leNat (Spec.Sha2.sha512 ((Spec.Sha2.sha512 sk).drop 32 ++ M')) = r'
  rw [← smulG_eq_iff, ← lift_eq, coe_smulG, coe_smulG]
  exact ⟨encode_inj (decodes_smul r).1 (decodes_smul r').1, congrArg _⟩

/-- C75. Two signatures accepted under one honest key that share `R`, however they were made, satisfy
`S - S' = (k - k') a` modulo `L`, `a` being the secret scalar. -/
theorem C75_shared_nonce_equation (m m' : Mode) (M M' sk pk sig sig' : Bytes) (hM : M.length + 64 < 2 ^ 61)
    (hM' : M'.length + 64 < 2 ^ 61) (hg : genPk m sk = some pk)
    (h : verify m M sig pk = some true) (h' : verify m' M' sig' pk = some true) (hR : sig.take 32 = sig'.take 32) :
    (leNat (sig.drop 32) : ZMod L) - leNat (sig'.drop 32) =
      ((leNat (Spec.Sha2.sha512 (sig.take 32 ++ pk ++ M)) : ZMod L) -
        leNat (Spec.Sha2.sha512 (sig'.take 32 ++ pk ++ M'))) * (secretScalar sk : ZMod L) := by
  have hl : sk.length = 32 := by
    by_contra hc
    rw [(C41_gen_pk_panics m sk).mpr hc] at hg
    cases hg
  rw [C41_gen_pk_rfc8032 m sk hl] at hg
  cases hg
  have hpk : (publicKey sk).length = 32 := encode_length _
  have dA : Decodes (publicKey sk) (smul (secretScalar sk) B) := decodes_smul _
  rw [C57_verify_equation m M sig _ hpk hM] at h
  rw [C57_verify_equation m' M' sig' _ hpk hM', ← hR] at h'
  rw [← hR]
  revert h h'
  generalize leNat (Spec.Sha2.sha512 (sig.take 32 ++ publicKey sk ++ M)) = k
  generalize leNat (Spec.Sha2.sha512 (sig.take 32 ++ publicKey sk ++ M')) = k'
  generalize leNat (sig.drop 32) = S
  generalize leNat (sig'.drop 32) = S'
  rintro ⟨-, -, A, R, dA1, dR, h3⟩ ⟨-, -, A', R', dA2, dR', h3'⟩
  obtain rfl := decodesLax_unique dA1 (Ed.Decodes.lax dA)
  obtain rfl := decodesLax_unique dA2 (Ed.Decodes.lax dA)
  obtain rfl := encode_inj dR.1 dR'.1 (dR.2.trans dR'.2.symm)
  have h4 : S • G = (⟨R, dR.1⟩ : Pt25519) + (k % L) • (secretScalar sk • G) := Subtype.ext (by
    simp only [coe_add, coe_smul, coe_G]; exact h3)
  have h4' : S' • G = (⟨R, dR.1⟩ : Pt25519) + (k' % L) • (secretScalar sk • G) := Subtype.ext (by
    simp only [coe_add, coe_smul, coe_G]; exact h3')
  have h5 : (S + k' % L * secretScalar sk) • G = (S' + k % L * secretScalar sk) • G := by
    rw [add_smul, add_smul, mul_smul, mul_smul, h4, h4']
    abel
  rw [smulG_eq_iff] at h5
  have h6 := (ZMod.natCast_eq_natCast_iff' _ _ L).mpr h5
  push_cast at h6
  rw [ZMod.natCast_mod, ZMod.natCast_mod] at h6
  linear_combination h6

/-- C75. So if their challenges differ, the two signatures alone determine the secret scalar modulo `L`. -/
theorem C75_shared_nonce_reveals_key (m m' : Mode) (M M' sk pk sig sig' : Bytes) (hM : M.length + 64 < 2 ^ 61)
    (hM' : M'.length + 64 < 2 ^ 61) (hg : genPk m sk = some pk)
    (h : verify m M sig pk = some true) (h' : verify m' M' sig' pk = some true) (hR : sig.take 32 = sig'.take 32)
    (hk : leNat (Spec.Sha2.sha512 (sig.take 32 ++ pk ++ M)) % L ≠ leNat (Spec.Sha2.sha512 (sig'.take 32 ++ pk ++ M')) % L) :
    (secretScalar sk : ZMod L) = ((leNat (sig.drop 32) : ZMod L) - leNat (sig'.drop 32)) *
      ((leNat (Spec.Sha2.sha512 (sig.take 32 ++ pk ++ M)) : ZMod L) -
        leNat (Spec.Sha2.sha512 (sig'.take 32 ++ pk ++ M')))⁻¹ := by
  have : Fact L.Prime := ⟨Ed.prime_L⟩
  have hne := sub_ne_zero.mpr (mt (ZMod.natCast_eq_natCast_iff' _ _ L).mp hk)
  rw [C75_shared_nonce_equation m m' M M' sk pk sig sig' hM hM' hg h h' hR, mul_comm, ← mul_assoc, inv_mul_cancel₀ hne, one_mul]

/-- C75. The secret scalar modulo `L` (with any nonce) suffices to sign: `encode [r]B`, then `r + k a` modulo `L`. -/
theorem C75_scalar_suffices_to_sign (m : Mode) (M sk pk : Bytes) (a r : Nat) (hM : M.length + 64 < 2 ^ 61) (hg : genPk m sk = some pk)
    (ha : a % L = secretScalar sk % L) :
    verify m M (encode (smul r B) ++
      toLE 32 ((r + leNat (Spec.Sha2.sha512 (encode (smul r B) ++ pk ++ M)) * a) % L)) pk = some true := by
  have hl : sk.length = 32 := by
    by_contra hc
    rw [(C41_gen_pk_panics m sk).mpr hc] at hg
    cases hg
  rw [C41_gen_pk_rfc8032 m sk hl] at hg
  cases hg
  have dA : Decodes (publicKey sk) (smul (secretScalar sk) B) := decodes_smul _
  have e1 := encode_length (smul r B)
  have hlt : ∀ n, n % L < 256 ^ 32 := fun n => (Nat.mod_lt _ (by norm_num [L])).trans (by norm_num [L])
  refine C44_rfc8032_accepted m M _ _ hM _ (smul r B) (by simp [e1]) ?_ dA ?_ ?_ ?_
  · rw [List.drop_left' e1, leNat_toLE, Nat.mod_eq_of_lt (hlt _)]
    exact Nat.mod_lt _ (by norm_num [L])
  · rw [List.take_left' e1]; exact decodes_smul r
  · rw [smul_smul', ← coe_smulG, ← coe_zero, lift_eq, mul_smul, smul_comm, order_G, smul_zero]
  · rw [List.drop_left' e1, List.take_left' e1, leNat_toLE, Nat.mod_eq_of_lt (hlt _)]
    generalize leNat (Spec.Sha2.sha512 (encode (smul r B) ++ publicKey sk ++ M)) = k
    have h1 : ((r + k * a) % L) • G = r • G + k • (secretScalar sk • G) := by
      rw [← mul_smul, ← add_smul, smulG_eq_iff, Nat.mod_mod]
      exact Nat.ModEq.add_left _ (Nat.ModEq.mul_left _ ha)
    have h2 := congrArg Subtype.val h1
    simp only [coe_add, coe_smul, coe_G] at h2
    exact h2

/-- Two signatures, on any two messages, that share the nonce 5: the hypotheses of `C75_shared_nonce_equation` are met. -/
example (M M' : Bytes) (hM : M.length + 64 < 2 ^ 61) (hM' : M'.length + 64 < 2 ^ 61) : ∃ pk sig sig',
    genPk .debug (zeros 32) = some pk ∧ verify .debug M sig pk = some true ∧ verify .debug M' sig' pk = some true ∧
      sig.take 32 = sig'.take 32 := by
  refine ⟨_, _, _, C41_gen_pk_rfc8032 _ _ (by decide),
    C75_scalar_suffices_to_sign .debug M (zeros 32) _ (secretScalar (zeros 32)) 5 hM (C41_gen_pk_rfc8032 _ _ (by decide)) rfl,
    C75_scalar_suffices_to_sign .debug M' (zeros 32) _ (secretScalar (zeros 32)) 5 hM' (C41_gen_pk_rfc8032 _ _ (by decide)) rfl, ?_⟩
  rw [List.take_left' (encode_length _), List.take_left' (encode_length _)]

/-! ## C76 -/

/-- C76. `verify` uses the equation without the cofactor: for every key and message there is a signature that satisfies RFC 8032's
equation (with the cofactor 8, see `Spec.Ed25519.Valid`) and is rejected. -/
theorem C76_valid_but_rejected (m : Mode) (M sk pk : Bytes) (hM : M.length + 64 < 2 ^ 61) (hg : genPk m sk = some pk) :
    ∃ sig, Valid M sig pk ∧ verify m M sig pk = some false := by
  have hl : sk.length = 32 := by
    by_contra hc
    rw [(C41_gen_pk_panics m sk).mpr hc] at hg
    cases hg
  rw [C41_gen_pk_rfc8032 m sk hl] at hg
  cases hg
  have dA : Decodes (publicKey sk) (smul (secretScalar sk) B) := decodes_smul _
  have hpk : (publicKey sk).length = 32 := encode_length _
  have dT : Decodes (encode T8.1) T8.1 := ⟨T8.2, rfl⟩
  have e1 := encode_length T8.1
  have hlt : ∀ n, n % L < 256 ^ 32 := fun n => (Nat.mod_lt _ (by norm_num [L])).trans (by norm_num [L])
  -- R = T8, S = k a
  let k := leNat (Spec.Sha2.sha512 (encode T8.1 ++ publicKey sk ++ M))
  let sig := encode T8.1 ++ toLE 32 (k * secretScalar sk % L)
  have hd : leNat (sig.drop 32) = k * secretScalar sk % L := by
    change leNat ((encode T8.1 ++ toLE 32 (k * secretScalar sk % L)).drop 32) = _
    rw [List.drop_left' e1, leNat_toLE, Nat.mod_eq_of_lt (hlt _)]
  have ht : sig.take 32 = encode T8.1 := List.take_left' e1
  have hsl : sig.length = 64 := by
    change (encode T8.1 ++ toLE 32 (k * secretScalar sk % L)).length = 64
    simp [e1]
  have hSG : (k * secretScalar sk % L) • G = k • (secretScalar sk • G) := by
    rw [← mul_smul, smulG_eq_iff, Nat.mod_mod]
  refine ⟨sig, ⟨hsl, ?_, _, T8.1, dA, by rw [ht]; exact dT, ?_⟩, ?_⟩
  · rw [hd]; exact Nat.mod_lt _ (by norm_num [L])
  · rw [hd, ht]
    have h1 : 8 • (k * secretScalar sk % L) • G = 8 • T8 + 8 • k • (secretScalar sk • G) := by
      rw [hSG, T8_order.1, zero_add]
    have h2 := congrArg Subtype.val h1
    simp only [coe_add, coe_smul, coe_G] at h2
    exact h2
  · have hne : verify m M sig (publicKey sk) ≠ none := fun h =>
      (C46_verify_panics m M sig _ (Or.inr hM)).mp h hpk
    have hnt : verify m M sig (publicKey sk) ≠ some true := by
      rw [Ne, C57_verify_equation m M sig _ hpk hM]
      rintro ⟨-, -, A, R, dA', dR, h3⟩
      obtain rfl := decodesLax_unique dA' (Ed.Decodes.lax dA)
      rw [ht] at dR h3
      obtain rfl := encode_inj dR.1 dT.1 dR.2
      rw [hd] at h3
      have h4 : (k * secretScalar sk % L) • G = T8 + (k % L) • (secretScalar sk • G) := Subtype.ext (by
        simp only [coe_add, coe_smul, coe_G]; exact h3)
      have h5 : (k % L) • (secretScalar sk • G) = k • (secretScalar sk • G) := by
        rw [← mul_smul, ← mul_smul, smulG_eq_iff]
        exact Nat.ModEq.mul_right _ (Nat.mod_modEq k L)
      rw [hSG, h5] at h4
      have h6 : T8 = 0 := by
        have := h4.symm
        rwa [add_eq_right] at this
      exact T8_order.2 (by rw [h6, smul_zero])
    revert hne hnt
    cases verify m M sig (publicKey sk) with
    | none => intro h; exact absurd rfl h
    | some b => cases b <;> simp

example : ∃ M sig pk, Valid M sig pk ∧ verify .release M sig pk = some false := by
  obtain ⟨sig, h⟩ := C76_valid_but_rejected .release [1, 2] (zeros 32) _ (by decide) (C41_gen_pk_rfc8032 _ _ (by decide))
  exact ⟨_, sig, _, h⟩

/-! ## Further concrete cases -/

/-- A signature by an honest key meets the hypotheses of C74. -/
example : ∃ pk sig, verify .debug [1] sig pk = some true ∧
    (verify .debug [2] sig pk = some true ↔ leNat (Spec.Sha2.sha512 (sig.take 32 ++ pk ++ [1])) % L =
      leNat (Spec.Sha2.sha512 (sig.take 32 ++ pk ++ [2])) % L) := by
  obtain ⟨pk, sig, hg, -, hv⟩ := C43_sign_verifies .debug [1] (zeros 32) (by decide) (.inr (by decide))
  obtain ⟨A, hA, hn⟩ := C60_gen_pk_order .debug _ _ hg
  have hl : pk.length = 32 := by
    obtain ⟨pk', a, h1, h2, -⟩ := C41_gen_pk_point .debug (zeros 32) (by decide)
    rw [hg] at h1; cases h1; exact h2
  refine ⟨pk, sig, hv, C74_message_bound .debug [1] [2] sig pk hl (by decide) (by decide) (fun A' h => ?_) hv⟩
  rw [C44_decode_unique pk A' A h (Ed.Decodes.lax hA), ne_eq, hn]
  norm_num [L]

example (sig pk : Bytes) (hg : genPk .release (zeros 32) = some pk) (h : verify .debug [1] sig pk = some true)
    (h' : verify .debug [2] sig pk = some true) :
    leNat (Spec.Sha2.sha512 (sig.take 32 ++ pk ++ [1])) % L = leNat (Spec.Sha2.sha512 (sig.take 32 ++ pk ++ [2])) % L :=
  C74_honest_key .debug .release [1] [2] sig (zeros 32) pk hg (by decide) (by decide) h h'

/-- Two messages: the nonces agree exactly if the two hashes agree modulo `L`. -/
example (sk : Bytes) (hsk : sk.length = 32) : ∃ sig sig', Model.Ed25519.sign .debug [1] sk = some sig ∧
    Model.Ed25519.sign .release [2] sk = some sig' ∧
    (sig.take 32 = sig'.take 32 ↔ leNat (Spec.Sha2.sha512 ((Spec.Sha2.sha512 sk).drop 32 ++ [1])) % L =
      leNat (Spec.Sha2.sha512 ((Spec.Sha2.sha512 sk).drop 32 ++ [2])) % L) := by
  have h := C42_sign_rfc8032 .debug [1] sk hsk (by simp)
  have h' := C42_sign_rfc8032 .release [2] sk hsk (by simp)
  exact ⟨_, _, h, h', C75_nonce_repeats_iff .debug .release [1] [2] sk _ _ (by simp) (by simp) h h'⟩

/-- Two signatures with the same nonce, made with the secret scalar: they satisfy the equation, for all messages. -/
example (sk M M' : Bytes) (hsk : sk.length = 32) (hM : M.length + 64 < 2 ^ 61) (hM' : M'.length + 64 < 2 ^ 61) : ∃ pk sig sig' : Bytes,
    genPk .debug sk = some pk ∧ (leNat (sig.drop 32) : ZMod L) - leNat (sig'.drop 32) =
      ((leNat (Spec.Sha2.sha512 (sig.take 32 ++ pk ++ M)) : ZMod L) -
        leNat (Spec.Sha2.sha512 (sig'.take 32 ++ pk ++ M'))) * (secretScalar sk : ZMod L) := by
  have hg := C41_gen_pk_rfc8032 .debug sk hsk
  refine ⟨_, _, _, hg, C75_shared_nonce_equation .debug .debug M M' sk _ _ _ hM hM' hg
    (C75_scalar_suffices_to_sign .debug M sk _ (secretScalar sk) 5 hM hg rfl)
    (C75_scalar_suffices_to_sign .debug M' sk _ (secretScalar sk) 5 hM' hg rfl) ?_⟩
  rw [List.take_append_of_le_length (by simp [encode_length]), List.take_append_of_le_length (by simp [encode_length])]

end CryptoPure.Props.Ed25519
