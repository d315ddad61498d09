import Verif.Model.EdWith
import Verif.Proofs.EdSign

/-! # The signature code over any hash functions -/

namespace CryptoPure.Ed
open Model Model.Fe Model.Ed25519 Model.EdWith Spec Spec.Ed25519 Edwards

/-- The secret scalar in the digest `az` of a secret key: RFC 8032 section 5.1.5. -/
def scalarOf (az : Bytes) : Nat := leNat (az.take 32) % 2 ^ 254 / 8 * 8 + 2 ^ 254

theorem base_spec (m : Mode) {az : Bytes} (h : az.length = 64) :
    ∃ a, scalarmultBase m (clampAz az) = some a ∧ Model.Ed25519.toBytes m a.x a.y a.z = some (encode (smul (scalarOf az) B)) := by
  obtain ⟨c1, c2, c3, c4⟩ := clampAz_spec h
  obtain ⟨a, e2, r2⟩ := scalarmultBase_spec m c4
  refine ⟨a, e2, ?_⟩
  rw [c3] at r2
  have := r2.encode m
  rw [coe_smulG] at this
  exact this

theorem genPkWith_spec (m : Mode) {az : Bytes} (h : az.length = 64) : genPkWith m az = some (encode (smul (scalarOf az) B)) := by
  obtain ⟨a, e1, e2⟩ := base_spec m h
  exact bind_step e1 e2

theorem signWith_spec (m : Mode) {az : Bytes} (h : az.length = 64) (Hn Hc : Bytes → Bytes) (hn : ∀ x, (Hn x).length = 64)
    (hc : ∀ x, (Hc x).length = 64) (M : Bytes) :
    signWith m az Hn Hc M = some (encode (smul (leNat (Hn M)) B) ++
      toLE 32 ((leNat (Hn M) + leNat (Hc (encode (smul (leNat (Hn M)) B) ++ encode (smul (scalarOf az) B) ++ M)) * scalarOf az) % L)) := by
  obtain ⟨c1, c2, c3, c4⟩ := clampAz_spec h
  obtain ⟨a, e2, e3⟩ := base_spec m h
  generalize hpk' : encode (smul (scalarOf az) B) = pk at *
  have hpk : pk.length = 32 := by rw [← hpk', encode_length]
  generalize hn1 : Hn M = n1
  have l1 : n1.length = 64 := by rw [← hn1, hn]
  have t1 : leNat ((toLE 32 (leNat n1 % L) ++ n1.drop 32).take 32) = leNat n1 % L := by rw [take_red, leNat_canon]
  obtain ⟨r, e4, r4⟩ := scalarmultBase_spec m (a := toLE 32 (leNat n1 % L) ++ n1.drop 32)
    (top_le (by rw [t1]; exact lt_trans (Nat.mod_lt _ L_pos) (by norm_num [L])))
  rw [t1, smul_mod_L] at r4
  have e5 := r4.encode m
  rw [coe_smulG] at e5
  have hR : (encode (smul (leNat n1) B)).length = 32 := encode_length _
  generalize hRe : encode (smul (leNat n1) B) = R at *
  generalize hn2 : Hc (R ++ pk ++ M) = n2
  have l2 : n2.length = 64 := by rw [← hn2, hc]
  have s1 : copyAt (zeros 64) 32 pk = zeros 32 ++ pk := by
    unfold copyAt
    rw [hpk]
    simp [zeros]
  have s2 : copyAt (zeros 32 ++ pk) 0 R = R ++ pk := by
    rw [copyAt_zero, hR, List.drop_left' (by simp)]
  have s3 : ∀ s, s.length = 32 → copyAt (R ++ pk) 32 s = R ++ s := by
    intro s hs
    unfold copyAt
    rw [List.take_left' hR, hs, List.drop_of_length_le (by simp [hR, hpk])]
    simp
  have r1 := Sc.reduce_spec m n1
  have r2 := Sc.reduce_spec m n2
  rw [mod512 l1] at r1
  rw [mod512 l2] at r2
  have t2 : leNat ((toLE 32 (leNat n2 % L) ++ n2.drop 32).take 32) = leNat n2 % L := by rw [take_red, leNat_canon]
  have r3 := Sc.muladd_spec m (toLE 32 (leNat n2 % L) ++ n2.drop 32) (clampAz az) (toLE 32 (leNat n1 % L) ++ n1.drop 32)
  rw [mod256 (by simp), mod256 (by omega), mod256 (by simp), t1, t2, c3, mod_expr] at r3
  subst hn1
  refine bind_step e2 <| bind_step e3 <| bind_step r1 <| bind_step e4 <| bind_step e5 ?_
  simp only
  rw [s1, s2, hn2]
  refine bind_step r2 <| bind_step r3 ?_
  rw [s3 _ (by simp)]
  rfl

theorem verifyWith_spec (m : Mode) {M sig pk : Bytes} (hpk : pk.length = 32) (Hc : Bytes → Bytes) (hc : ∀ x, (Hc x).length = 64) :
    ∃ b, verifyWith m Hc M sig pk = some b ∧
      (b = true ↔ sig.length = 64 ∧ leNat (sig.drop 32) < 2 ^ 253 ∧ ∃ A, DecodesLax pk A ∧
        encode (add (smul (leNat (sig.drop 32)) B) (neg (smul (leNat (Hc (sig.take 32 ++ pk ++ M)) % L) A))) = sig.take 32) := by
  have hassert : assert (32 == pk.length) = some () := by simp [assert, hpk]
  by_cases hs : sig.length ≠ 64 ∨ (sig.getD 63 0 &&& 224) ≠ 0
  · refine ⟨false, bind_step hassert (by rw [if_pos hs]), ?_⟩
    constructor
    · intro h; cases h
    · rintro ⟨h1, h2, -⟩
      rw [← top_bits h1] at h2
      tauto
  · have hs' : sig.length = 64 ∧ (sig.getD 63 0 &&& 224) = 0 := by tauto
    obtain ⟨hs1, hs2⟩ := hs'
    rw [top_bits hs1] at hs2
    generalize hnn : Hc (sig.take 32 ++ pk ++ M) = n
    have hn : n.length = 64 := by rw [← hnn, hc]
    rcases fromBytesNegate_spec m hpk with ⟨A, g, e1, dA, rA⟩ | ⟨e1, hno⟩
    · have r1 := Sc.reduce_spec m n
      rw [mod512 hn] at r1
      have t1 : leNat ((toLE 32 (leNat n % L) ++ n.drop 32).take 32) = leNat n % L := by rw [take_red, leNat_canon]
      have hd : (sig.drop 32).length = 32 := by simp [hs1]
      obtain ⟨r, e2, rr⟩ := doubleScalarmult_spec m (a := toLE 32 (leNat n % L) ++ n.drop 32) (b := sig.drop 32) rA (by simp) hd
        (by rw [t1]; exact (lt_trans (Nat.mod_lt _ L_pos) (by norm_num [L])).le) hs2.le
      rw [t1] at rr
      have e3 := rr.encode m
      have hP : (((leNat n % L) • -A + leNat (sig.drop 32) • G : Pt25519) : Point) =
          add (smul (leNat (sig.drop 32)) B) (neg (smul (leNat n % L) A.1)) := by
        rw [add_comm, smul_neg, coe_add, coe_neg, coe_smulG, coe_smul]
      rw [hP] at e3
      refine ⟨verify32 (encode (add (smul (leNat (sig.drop 32)) B) (neg (smul (leNat n % L) A.1)))) (sig.take 32) == 0, ?_, ?_⟩
      · refine bind_step hassert ?_
        rw [if_neg hs]
        refine bind_step e1 ?_
        simp only
        rw [hnn]
        exact bind_step r1 <| bind_step e2 <| bind_step e3 rfl
      · rw [beq_iff_eq, verify32_spec (by rw [encode_length]; simp [hs1])]
        constructor
        · intro h
          exact ⟨hs1, hs2, A.1, dA, h⟩
        · rintro ⟨-, -, A', dA', h⟩
          rw [decodesLax_unique dA dA']
          exact h
    · refine ⟨false, bind_step hassert ?_, ?_⟩
      · rw [if_neg hs]
        exact bind_step e1 rfl
      · constructor
        · intro h; cases h
        · rintro ⟨-, -, A, hA, -⟩
          exact absurd hA (hno A)

end CryptoPure.Ed
