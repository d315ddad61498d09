import Verif.Proofs.EdCodec
import Verif.Proofs.Sc
import Verif.Props.Hash

/-! # Keys, signatures, verification -/

namespace CryptoPure.Ed
open Model Model.Fe Model.Ed25519 Spec Spec.Ed25519 Edwards

/-! ## Hashing -/

theorem sha512_length (x : Bytes) : (Spec.Sha2.sha512 x).length = 64 :=
  Proofs.digestWith_length _ _ (by decide) _ _

theorem hash_spec (m : Mode) (parts : List Bytes) (h : parts.flatten.length < 2 ^ 61) :
    hashParts m parts = some (Spec.Sha2.sha512 parts.flatten) :=
  Props.C03_split_fips .sha512 m parts (zeros 64) (by decide) h

theorem sha512_spec (m : Mode) (x : Bytes) (h : x.length < 2 ^ 61) : Model.Sha2.sha512 m x = some (Spec.Sha2.sha512 x) :=
  Props.C02_sha2_fips .sha512 m x h

/-- In release mode hashing never panics. -/
theorem hash_release (parts : List Bytes) : ∃ h, hashParts .release parts = some h ∧ h.length = 64 := by
  refine ⟨_, Props.streamed_release .sha512 parts (zeros 64) (by decide), ?_⟩
  exact Proofs.digestWith_length _ _ (by decide) _ _

/-! ## Clamping -/

theorem b248 : ∀ b : U8, (b &&& 248).toNat = b.toNat / 8 * 8 := by decide +kernel
theorem b63 : ∀ b : U8, ((b &&& 63) ||| 64).toNat = b.toNat % 64 + 64 := by decide +kernel

theorem clampAz_eq (b0 b31 : U8) (mid rest : Bytes) (hm : mid.length = 30) :
    clampAz (b0 :: (mid ++ b31 :: rest)) = (b0 &&& 248) :: (mid ++ ((b31 &&& 63) ||| 64) :: rest) := by
  unfold clampAz
  simp only [List.set_cons_zero, List.getD_cons_zero]
  have h31 : ∀ (x y z : U8), (x :: (mid ++ y :: rest)).set 31 z = x :: (mid ++ z :: rest) := by
    intro x y z
    rw [show (31 : Nat) = 30 + 1 from rfl, List.set_cons_succ, List.set_append_right _ _ (by omega), hm]
    rfl
  have g31 : ∀ (x y : U8), (x :: (mid ++ y :: rest)).getD 31 0 = y := by
    intro x y
    rw [show (31 : Nat) = 30 + 1 from rfl, List.getD_cons_succ, List.getD_append_right _ _ _ _ (by omega), hm]
    rfl
  rw [g31, h31, g31, h31]

theorem split64 {az : Bytes} (h : 32 ≤ az.length) : ∃ b0 b31 mid rest, az = b0 :: (mid ++ b31 :: rest) ∧ mid.length = 30 := by
  cases az with
  | nil => simp at h
  | cons b0 t =>
    have ht : 31 ≤ t.length := by simpa using h
    refine ⟨b0, t[30], t.take 30, t.drop 31, ?_, by simp; omega⟩
    rw [← List.drop_eq_getElem_cons (by omega), List.take_append_drop]

theorem clampAz_spec {az : Bytes} (h : az.length = 64) :
    (clampAz az).length = 64 ∧ (clampAz az).drop 32 = az.drop 32 ∧
    leNat ((clampAz az).take 32) = leNat (az.take 32) % 2 ^ 254 / 8 * 8 + 2 ^ 254 ∧ ((clampAz az).getD 31 0).toNat ≤ 127 := by
  obtain ⟨b0, b31, mid, rest, rfl, hm⟩ := split64 (az := az) (by omega)
  rw [clampAz_eq _ _ _ _ hm]
  have htake : ∀ x y : U8, (x :: (mid ++ y :: rest)).take 32 = x :: (mid ++ [y]) := by
    intro x y
    rw [show (32 : Nat) = 31 + 1 from rfl, List.take_succ_cons, List.take_append, List.take_of_length_le (by omega), hm]
    rfl
  have hdrop : ∀ x y : U8, (x :: (mid ++ y :: rest)).drop 32 = rest := by
    intro x y
    rw [show (32 : Nat) = 31 + 1 from rfl, List.drop_succ_cons, List.drop_append, List.drop_of_length_le (by omega), hm]
    rfl
  refine ⟨by simpa using h, by rw [hdrop, hdrop], ?_, ?_⟩
  · rw [htake, htake]
    have hlm := leNat_lt mid
    have h0 := b0.isLt
    have h1 := b31.isLt
    simp only [leNat, leNat_append, hm, b248, b63] at hlm ⊢
    norm_num at hlm ⊢
    omega
  · rw [show (31 : Nat) = 30 + 1 from rfl, List.getD_cons_succ, List.getD_append_right _ _ _ _ (by omega), hm, Nat.sub_self,
      List.getD_cons_zero, b63]
    omega

/-! ## The base point -/

theorem L_pos : 0 < L := by norm_num [L]

theorem smul_mod_L (n : Nat) : (n % L) • G = n • G := by
  conv_rhs => rw [← Nat.div_add_mod n L, add_smul, mul_comm, mul_smul, order_G, smul_zero, zero_add]

theorem coe_smulG (n : Nat) : ((n • G : Pt25519) : Point) = smul n B := coe_smul n G

theorem encode_length (P : Point) : (encode P).length = 32 := by simp [encode]

theorem leNat_canon (n : Nat) : leNat (toLE 32 (n % L)) = n % L := by
  rw [leNat_toLE, Nat.mod_eq_of_lt]
  exact lt_trans (Nat.mod_lt _ L_pos) (by norm_num [L])

/-- A little-endian number below 2^255 has a small top byte. -/
theorem top_le {s : Bytes} (h : leNat (s.take 32) < 2 ^ 255) : (s.getD 31 0).toNat ≤ 127 := by
  rw [leNat_take_succ] at h
  by_contra hc
  push Not at hc
  have := Nat.mul_le_mul_left (256 ^ 31) (show 128 ≤ (s.getD 31 0).toNat by omega)
  norm_num at h this
  omega

theorem secretScalar_spec (m : Mode) {sk : Bytes} (h : sk.length = 32) :
    ∃ az a, Model.Sha2.sha512 m sk = some az ∧ az = Spec.Sha2.sha512 sk ∧ (clampAz az).length = 64 ∧
      (clampAz az).drop 32 = (Spec.Sha2.sha512 sk).drop 32 ∧ leNat ((clampAz az).take 32) = secretScalar sk ∧
      scalarmultBase m (clampAz az) = some a ∧ Model.Ed25519.toBytes m a.x a.y a.z = some (publicKey sk) := by
  have e1 := sha512_spec m sk (by rw [h]; norm_num)
  obtain ⟨c1, c2, c3, c4⟩ := clampAz_spec (sha512_length sk)
  obtain ⟨a, e2, r2⟩ := scalarmultBase_spec m c4
  refine ⟨_, a, e1, rfl, c1, c2, c3, e2, ?_⟩
  rw [c3] at r2
  have := r2.encode m
  rw [coe_smulG] at this
  exact this

/-- `gen_pk`. -/
theorem genPk_spec (m : Mode) {sk : Bytes} (h : sk.length = 32) : genPk m sk = some (publicKey sk) := by
  obtain ⟨az, a, e1, -, -, -, -, e2, e3⟩ := secretScalar_spec m h
  exact bind_step (a := ()) (by simp [assert, h]) <| bind_step e1 <| bind_step e2 e3

theorem mod_expr (k a r : Nat) : (k % L * a + r % L) % L = (r + k * a) % L := by
  rw [Nat.add_mod, Nat.mul_mod, Nat.mod_mod, Nat.mod_mod, ← Nat.mul_mod, ← Nat.add_mod, add_comm]

/-- Low half of a reduced hash. -/
theorem take_red (n : Nat) (t : Bytes) : (toLE 32 (n % L) ++ t).take 32 = toLE 32 (n % L) := by
  rw [List.take_append_of_le_length (by simp), List.take_of_length_le (by simp)]

theorem mod512 {h : Bytes} (hl : h.length = 64) : leNat h % 2 ^ 512 = leNat h := by
  have := leNat_lt h
  rw [hl, show 256 ^ 64 = 2 ^ 512 by rw [show 256 = 2 ^ 8 by rfl, ← Nat.pow_mul]] at this
  exact Nat.mod_eq_of_lt this

theorem mod256 {x : Bytes} (hl : 32 ≤ x.length) : leNat x % 2 ^ 256 = leNat (x.take 32) := by
  conv_lhs => rw [← List.take_append_drop 32 x, leNat_append]
  have := leNat_lt (x.take 32)
  have ht : (x.take 32).length = 32 := by simp; omega
  rw [ht] at this ⊢
  rw [show (256 : Nat) ^ 32 = 2 ^ 256 by norm_num] at *
  rw [Nat.add_mul_mod_self_left, Nat.mod_eq_of_lt this]

/-- `sign`, for any outcome of the hash. -/
theorem sign_core (m : Mode) {M sk : Bytes} (h : sk.length = 32) {n1 n2 : Bytes}
    (h1 : hashParts m [(Spec.Sha2.sha512 sk).drop 32, M] = some n1) (l1 : n1.length = 64)
    (h2 : hashParts m [encode (smul (leNat n1) B) ++ publicKey sk, M] = some n2) (l2 : n2.length = 64) :
    Model.Ed25519.sign m M sk = some (encode (smul (leNat n1) B) ++ toLE 32 ((leNat n1 + leNat n2 * secretScalar sk) % L)) := by
  obtain ⟨az, a, e1, eaz, c1, c2, c3, e2, e3⟩ := secretScalar_spec m h
  have t1 : leNat ((toLE 32 (leNat n1 % L) ++ n1.drop 32).take 32) = leNat n1 % L := by rw [take_red, leNat_canon]
  obtain ⟨r, e4, r4⟩ := scalarmultBase_spec m (a := toLE 32 (leNat n1 % L) ++ n1.drop 32)
    (top_le (by rw [t1]; exact lt_trans (Nat.mod_lt _ L_pos) (by norm_num [L])))
  rw [t1, smul_mod_L] at r4
  have e5 := r4.encode m
  rw [coe_smulG] at e5
  have hpk : (publicKey sk).length = 32 := encode_length _
  have hR : (encode (smul (leNat n1) B)).length = 32 := encode_length _
  generalize hRe : encode (smul (leNat n1) B) = R at *
  have s1 : copyAt (zeros 64) 32 (publicKey sk) = zeros 32 ++ publicKey sk := by
    unfold copyAt
    rw [hpk]
    simp [zeros]
  have s2 : copyAt (zeros 32 ++ publicKey sk) 0 R = R ++ publicKey sk := by
    rw [copyAt_zero, hR, List.drop_left' (by simp)]
  have s3 : ∀ s, s.length = 32 → copyAt (R ++ publicKey sk) 32 s = R ++ s := by
    intro s hs
    unfold copyAt
    rw [List.take_left' hR, hs, List.drop_of_length_le (by simp [hR, hpk])]
    simp
  have r1 := Sc.reduce_spec m n1
  have r2 := Sc.reduce_spec m n2
  rw [mod512 l1] at r1
  rw [mod512 l2] at r2
  have t2 : leNat ((toLE 32 (leNat n2 % L) ++ n2.drop 32).take 32) = leNat n2 % L := by rw [take_red, leNat_canon]
  have r3 := Sc.muladd_spec m (toLE 32 (leNat n2 % L) ++ n2.drop 32) (clampAz az) (toLE 32 (leNat n1 % L) ++ n1.drop 32)
  rw [mod256 (by simp), mod256 (by omega), mod256 (by simp), t1, t2, c3, mod_expr] at r3
  rw [← c2] at h1
  refine bind_step (a := ()) (by simp [assert, h]) <| bind_step e1 <| bind_step e2 <| bind_step e3 <| bind_step h1 <| bind_step r1 <|
    bind_step e4 <| bind_step e5 ?_
  simp only
  rw [s1, s2]
  refine bind_step h2 <| bind_step r2 <| bind_step r3 ?_
  rw [s3 _ (by simp)]

theorem sign_spec (m : Mode) {M sk : Bytes} (h : sk.length = 32) (hM : M.length + 64 < 2 ^ 61) :
    Model.Ed25519.sign m M sk = some (Spec.Ed25519.sign M sk) := by
  have hl : ((Spec.Sha2.sha512 sk).drop 32).length = 32 := by rw [List.length_drop, sha512_length]
  have hpk : (publicKey sk).length = 32 := encode_length _
  have h1 := hash_spec m [(Spec.Sha2.sha512 sk).drop 32, M] (by simp only [List.flatten_cons, List.flatten_nil, List.length_append, List.length_nil, hl]; omega)
  rw [show [(Spec.Sha2.sha512 sk).drop 32, M].flatten = (Spec.Sha2.sha512 sk).drop 32 ++ M by simp] at h1
  have h2 := hash_spec m [encode (smul (leNat (Spec.Sha2.sha512 ((Spec.Sha2.sha512 sk).drop 32 ++ M))) B) ++ publicKey sk, M]
    (by simp only [List.flatten_cons, List.flatten_nil, List.length_append, List.length_nil, hpk, encode_length]; omega)
  rw [sign_core m h h1 (sha512_length _) h2 (sha512_length _)]
  simp only [Spec.Ed25519.sign, List.flatten_cons, List.flatten_nil, List.append_nil]

/-! ## Verification -/

theorem b224 : ∀ b : U8, (b &&& 224) = 0 ↔ b.toNat < 32 := by decide +kernel

theorem top_bits {sig : Bytes} (h : sig.length = 64) : (sig.getD 63 0 &&& 224) = 0 ↔ leNat (sig.drop 32) < 2 ^ 253 := by
  have hd : (sig.drop 32).length = 32 := by simp [h]
  have hg : sig.getD 63 0 = (sig.drop 32).getD 31 0 := by
    rw [List.getD_eq_getElem _ _ (by omega), List.getD_eq_getElem _ _ (by omega), List.getElem_drop]
  rw [b224, hg]
  generalize sig.drop 32 = s at *
  have hn' : leNat s = leNat (s.take 31) + 256 ^ 31 * (s.getD 31 0).toNat := by
    conv_lhs => rw [← List.take_of_length_le (i := 32) (l := s) (by omega)]
    rw [leNat_take_succ]
  have ht := leNat_lt (s.take 31)
  rw [show (s.take 31).length = 31 by simp [hd]] at ht
  rw [hn']
  norm_num at ht ⊢
  omega

/-- `verify`, for any outcome of the hash. -/
theorem verify_core (m : Mode) {M sig pk : Bytes} (hpk : pk.length = 32) {n : Bytes}
    (hh : hashParts m [sig.take 32, pk, M] = some n) (hn : n.length = 64) :
    ∃ b, Model.Ed25519.verify m M sig pk = some b ∧
      (b = true ↔ sig.length = 64 ∧ leNat (sig.drop 32) < 2 ^ 253 ∧ ∃ A, DecodesLax pk A ∧
        encode (add (smul (leNat (sig.drop 32)) B) (neg (smul (leNat n % L) A))) = sig.take 32) := by
  have hassert : assert (32 == pk.length) = some () := by simp [assert, hpk]
  by_cases hs : sig.length ≠ 64 ∨ (sig.getD 63 0 &&& 224) ≠ 0
  · refine ⟨false, bind_step hassert (by rw [if_pos hs]), ?_⟩
    constructor
    · intro h; cases h
    · rintro ⟨h1, h2, -⟩
      rw [← top_bits h1] at h2
      tauto
  · have hs' : sig.length = 64 ∧ (sig.getD 63 0 &&& 224) = 0 := by tauto
    obtain ⟨hs1, hs2⟩ := hs'
    rw [top_bits hs1] at hs2
    rcases fromBytesNegate_spec m hpk with ⟨A, g, e1, dA, rA⟩ | ⟨e1, hno⟩
    · have r1 := Sc.reduce_spec m n
      rw [mod512 hn] at r1
      have t1 : leNat ((toLE 32 (leNat n % L) ++ n.drop 32).take 32) = leNat n % L := by rw [take_red, leNat_canon]
      have hd : (sig.drop 32).length = 32 := by simp [hs1]
      obtain ⟨r, e2, rr⟩ := doubleScalarmult_spec m (a := toLE 32 (leNat n % L) ++ n.drop 32) (b := sig.drop 32) rA (by simp) hd
        (by rw [t1]; exact (lt_trans (Nat.mod_lt _ L_pos) (by norm_num [L])).le) hs2.le
      rw [t1] at rr
      have e3 := rr.encode m
      have hP : (((leNat n % L) • -A + leNat (sig.drop 32) • G : Pt25519) : Point) =
          add (smul (leNat (sig.drop 32)) B) (neg (smul (leNat n % L) A.1)) := by
        rw [add_comm, smul_neg, coe_add, coe_neg, coe_smulG, coe_smul]
      rw [hP] at e3
      refine ⟨verify32 (encode (add (smul (leNat (sig.drop 32)) B) (neg (smul (leNat n % L) A.1)))) (sig.take 32) == 0, ?_, ?_⟩
      · refine bind_step hassert ?_
        rw [if_neg hs]
        exact bind_step e1 <| bind_step hh <| bind_step r1 <| bind_step e2 <| bind_step e3 rfl
      · rw [beq_iff_eq, verify32_spec (by rw [encode_length]; simp [hs1])]
        constructor
        · intro h
          exact ⟨hs1, hs2, A.1, dA, h⟩
        · rintro ⟨-, -, A', dA', h⟩
          rw [decodesLax_unique dA dA']
          exact h
    · refine ⟨false, bind_step hassert ?_, ?_⟩
      · rw [if_neg hs]
        exact bind_step e1 rfl
      · constructor
        · intro h; cases h
        · rintro ⟨-, -, A, hA, -⟩
          exact absurd hA (hno A)

theorem verify_spec (m : Mode) {M sig pk : Bytes} (hpk : pk.length = 32) (hM : M.length + 64 < 2 ^ 61) :
    ∃ b, Model.Ed25519.verify m M sig pk = some b ∧
      (b = true ↔ sig.length = 64 ∧ leNat (sig.drop 32) < 2 ^ 253 ∧ ∃ A, DecodesLax pk A ∧
        encode (add (smul (leNat (sig.drop 32)) B) (neg (smul (leNat (Spec.Sha2.sha512 (sig.take 32 ++ pk ++ M)) % L) A))) =
          sig.take 32) := by
  have hh := hash_spec m [sig.take 32, pk, M] (by
    simp only [List.flatten_cons, List.flatten_nil, List.length_append, List.length_nil, hpk, List.length_take]
    omega)
  rw [show [sig.take 32, pk, M].flatten = sig.take 32 ++ pk ++ M by simp] at hh
  exact verify_core m hpk hh (sha512_length _)

/-! ## Facts about encodings -/

theorem encode_val (P : Point) : leNat (encode P) = P.2.val + 2 ^ 255 * (P.1.val % 2) := by
  unfold encode
  have := ZMod.val_lt P.2
  rw [leNat_toLE, Nat.mod_eq_of_lt]
  have h2 : p25519 < 2 ^ 255 := by norm_num [p25519]
  norm_num at h2 ⊢
  omega

/-- The strict decoding implies the lax one. -/
theorem Decodes.lax {s : Bytes} {P : Point} (h : Decodes s P) : DecodesLax s P := by
  obtain ⟨h1, rfl⟩ := h
  have hv := encode_val P
  have hlt := ZMod.val_lt P.2
  have h2 : p25519 < 2 ^ 255 := by norm_num [p25519]
  refine ⟨h1, ?_, Or.inr ?_⟩
  · have : leNat (encode P) % 2 ^ 255 = P.2.val := by rw [hv]; omega
    rw [this, ZMod.natCast_zmod_val]
  · rw [hv]; omega

theorem decodes_smul (n : Nat) : Decodes (encode (smul n B)) (smul n B) := ⟨by rw [← coe_smulG]; exact (n • G).2, rfl⟩

theorem smul_smul' (a b : Nat) : smul a (smul b B) = smul (a * b) B := by
  have h : smul b B = ((b • G : Pt25519) : Point) := (coe_smulG b).symm
  rw [h, ← coe_smul, smul_smul, coe_smulG]

end CryptoPure.Ed
