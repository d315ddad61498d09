import Verif.Props.ForgeryPoly
import Verif.Props.CcpIdeal

/-! # Property C92: how rarely the faulty final reduction of Poly1305 shows -/

namespace CryptoPure.Props
open CryptoPure.Model CryptoPure.Model.Poly1305 Polynomial
open CryptoPure.Spec.Poly1305 (clamp macData P)

/-- Few multipliers bring the accumulator to a given value. -/
theorem accumulate_roots (bs : List Bytes) (b : Bytes) (hb : b.length = 16) (v : Nat) :
    ∃ S : Finset Nat, S.card ≤ bs.length + 1 ∧
      ∀ r, r < P → Spec.Poly1305.accumulate r (bs ++ [b]) = v → r ∈ S := by
  classical
  let p := Proofs.Poly1305Universal.poly (bs ++ [b]) - C (v : ZMod P)
  have hp : p ≠ 0 := by
    intro h
    have h : Proofs.Poly1305Universal.poly (bs ++ [b]) = C (v : ZMod P) := sub_eq_zero.mp h
    have h0 := congrArg (coeff · 0) h
    simp only [Proofs.Poly1305Universal.coeff_zero_poly, coeff_C_zero] at h0
    rw [← h0, C_0] at h
    exact Proofs.Poly1305Universal.poly_snoc_ne_zero bs b hb h
  have hd : p.natDegree ≤ bs.length + 1 := by
    refine (natDegree_sub_le _ _).trans (max_le ?_ ?_)
    · exact (Proofs.Poly1305Universal.natDegree_poly _).trans (by simp)
    · rw [natDegree_C]; omega
  refine ⟨p.roots.toFinset.image ZMod.val, ?_, fun r hr h => ?_⟩
  · calc _ ≤ p.roots.toFinset.card := Finset.card_image_le
      _ ≤ Multiset.card p.roots := Multiset.toFinset_card_le _
      _ ≤ p.natDegree := card_roots' p
      _ ≤ _ := hd
  · refine Finset.mem_image.mpr ⟨(r : ZMod P), ?_, ZMod.val_cast_of_lt hr⟩
    rw [Multiset.mem_toFinset, mem_roots hp, IsRoot, eval_sub, Proofs.Poly1305Universal.eval_poly, h, eval_C, sub_self]

theorem accumulate_small (bs : List Bytes) (b : Bytes) (hb : b.length = 16) (N : Nat) :
    ∃ S : Finset Nat, S.card ≤ N * (bs.length + 1) ∧
      ∀ r, r < P → Spec.Poly1305.accumulate r (bs ++ [b]) < N → r ∈ S := by
  classical
  choose f hf1 hf2 using accumulate_roots bs b hb
  refine ⟨(Finset.range N).biUnion f, ?_, fun r hr h => ?_⟩
  · exact (Finset.card_biUnion_le_card_mul _ _ _ fun v _ => hf1 v).trans (by rw [Finset.card_range])
  · exact Finset.mem_biUnion.mpr ⟨_, Finset.mem_range.mpr h, hf2 _ _ hr rfl⟩

/-- Fix the data and the ciphertext. At most `2^31` times the number of authenticated blocks of the `2^106` possible
clamped multipliers `r` make the authenticator, under any one-time key and in any build mode, differ from RFC 8439. -/
theorem C92_wrong_multipliers (data ct : Bytes) :
    ∃ S : Finset Nat, S.card ≤ 2 ^ 31 * ccpBlocks data ct ∧
      ∀ (key : Bytes), key.length = 32 → ∀ m : Mode,
        poly1305 m key data ct ≠ some (Spec.Poly1305.mac key (macData data ct)) →
        clamp (leNat (key.take 16)) ∈ S := by
  classical
  obtain ⟨hb, hl⟩ := mac_blocks data ct
  rcases List.eq_nil_or_concat (chunks 16 (macData data ct)) with h0 | ⟨bs, b, h0⟩
  · rw [h0] at hl
    simp [ccpBlocks] at hl
  rw [List.concat_eq_append] at h0
  rw [h0] at hb hl
  obtain ⟨S, hS, hall⟩ := accumulate_small bs b (hb b (by simp)) (2 ^ 31)
  refine ⟨S, ?_, fun key hk m h => hall _ (Proofs.Poly1305Universal.clamp_lt _) ?_⟩
  · rwa [← hl, List.length_append]
  · by_contra hc
    refine h (C29_rfc m key data ct hk ?_)
    unfold Spec.Poly1305.acc
    rw [h0]
    exact Nat.le_of_not_lt hc

/-- The one-time key with halves `r` and `s`. Every 32-byte key is one of these, for exactly one pair. -/
def polyKey (p : BitVec 128 × BitVec 128) : Bytes := toLE 16 p.1.toNat ++ toLE 16 p.2.toNat

theorem C92_keys (key : Bytes) (hk : key.length = 32) : ∃! p, polyKey p = key := by
  refine ⟨(BitVec.ofNat 128 (leNat (key.take 16)), BitVec.ofNat 128 (leNat (key.drop 16))), ?_, ?_⟩
  · have h1 : (key.take 16).length = 16 := by simp [hk]
    have h2 : (key.drop 16).length = 16 := by simp [hk]
    unfold polyKey
    simp only [BitVec.toNat_ofNat]
    rw [Nat.mod_eq_of_lt (leNat_lt16 _ h1), Nat.mod_eq_of_lt (leNat_lt16 _ h2)]
    conv_rhs => rw [← List.take_append_drop 16 key]
    congr 1
    · exact leNat_inj (by simp [h1]) (by rw [leNat_toLE]; exact Nat.mod_eq_of_lt (leNat_lt16 _ h1))
    · exact leNat_inj (by simp [h2]) (by rw [leNat_toLE]; exact Nat.mod_eq_of_lt (leNat_lt16 _ h2))
  · rintro ⟨r, s⟩ rfl
    have e1 : (polyKey (r, s)).take 16 = toLE 16 r.toNat := by simp [polyKey]
    have e2 : (polyKey (r, s)).drop 16 = toLE 16 s.toNat := by simp [polyKey]
    rw [e1, e2, leNat_toLE, leNat_toLE]
    ext1
    · apply BitVec.eq_of_toNat_eq
      simp only [BitVec.toNat_ofNat]
      have := r.isLt
      omega
    · apply BitVec.eq_of_toNat_eq
      simp only [BitVec.toNat_ofNat]
      have := s.isLt
      omega

/-- Of the `2^256` one-time keys at most `2^181` times the number of authenticated blocks get a tag that differs from
RFC 8439's: for a uniformly random one-time key, a chance of at most `ccpBlocks data ct / 2^75`. -/
theorem C92_wrong_keys (data ct : Bytes) :
    Set.ncard {p : BitVec 128 × BitVec 128 |
      ∃ m : Mode, poly1305 m (polyKey p) data ct ≠ some (Spec.Poly1305.mac (polyKey p) (macData data ct))}
      ≤ 2 ^ 181 * ccpBlocks data ct := by
  classical
  obtain ⟨S, hS, hall⟩ := C92_wrong_multipliers data ct
  have hsub : {p : BitVec 128 × BitVec 128 |
      ∃ m : Mode, poly1305 m (polyKey p) data ct ≠ some (Spec.Poly1305.mac (polyKey p) (macData data ct))} ⊆
      {x : BitVec 128 | clamp ((0#128) ^^^ x).toNat ∈ S} ×ˢ (Set.univ : Set (BitVec 128)) := by
    rintro ⟨r, s⟩ ⟨m, h⟩
    have := hall _ (by simp [polyKey]) m h
    have e1 : (polyKey (r, s)).take 16 = toLE 16 r.toNat := by simp [polyKey]
    rw [e1, leNat_toLE, Nat.mod_eq_of_lt (show r.toNat < 256 ^ 16 from r.isLt)] at this
    refine ⟨?_, trivial⟩
    simpa using this
  refine (Set.ncard_le_ncard hsub (Set.toFinite _)).trans ?_
  rw [Set.ncard_prod, Set.ncard_univ]
  have h2 := clamp_preimage S 0#128
  have h3 : Nat.card (BitVec 128) = 2 ^ 128 := by
    rw [Nat.card_eq_of_bijective (BitVec.toFin (w := 128)) ⟨fun _ _ h => BitVec.toFin_inj.mp h, fun x => ⟨⟨x⟩, rfl⟩⟩]
    simp
  rw [h3]
  calc _ ≤ 2 ^ 22 * (2 ^ 31 * ccpBlocks data ct) * 2 ^ 128 := Nat.mul_le_mul_right _ (h2.trans (Nat.mul_le_mul_left _ hS))
    _ = _ := by ring

/-- The bad set is not empty for the data of `C51_deviation`: the one-time key of `devKey` and the zero nonce is in it. -/
example : ∃ p : BitVec 128 × BitVec 128,
    poly1305 .debug (polyKey p) devData [] ≠ some (Spec.Poly1305.mac (polyKey p) (macData devData [])) := by
  have hk : devKey.length = 32 := by simp [devKey]
  have hol : (Spec.Poly1305.oneTimeKey devKey (zeros 12)).length = 32 := by
    unfold Spec.Poly1305.oneTimeKey
    rw [List.length_take, Proofs.ChaCha20.spec_block_length]
    rfl
  obtain ⟨p, hp, -⟩ := C92_keys _ hol
  refine ⟨p, ?_⟩
  rw [hp]
  obtain ⟨h1, h2, -⟩ := C51_deviation .debug
  obtain ⟨-, -, -, ht⟩ := ccp_encrypt_some hk h1
  rw [tag_poly .debug devKey (zeros 12) hk (by simp) _ _ _ ht]
  change _ ≠ some (Spec.Poly1305.tag devKey (zeros 12) devData [])
  rw [h2]
  decide +kernel

end CryptoPure.Props
