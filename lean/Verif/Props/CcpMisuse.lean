import Verif.Props.ForgeryPoly

/-! # Property C98: what reusing a ChaCha20-Poly1305 nonce costs -/

namespace CryptoPure.Props
open CryptoPure.Model CryptoPure.Model.Poly1305
open CryptoPure.Spec.Poly1305 (clamp macData oneTimeKey)

/-- Two encryptions under one key and nonce, of different (data, ciphertext) pairs, confine the secret multiplier of the
one-time key to a set that can be computed from what was sent, of at most 1480 elements per block. -/
theorem C98_nonce_reuse_exposes_multiplier (data ct t data' ct' t' : Bytes)
    (h1 : data.length < 2 ^ 64) (h2 : ct.length < 2 ^ 64) (h3 : data'.length < 2 ^ 64) (h4 : ct'.length < 2 ^ 64)
    (hne : (data', ct') ≠ (data, ct)) :
    ∃ S : Finset Nat, S.card ≤ 1480 * max (ccpBlocks data ct) (ccpBlocks data' ct') ∧
      ∀ (key k : Bytes), Model.Poly1305.new key = some k →
        ∀ (m m' : Mode) (nonce input output input' output' : Bytes),
          encrypt m k input nonce data output = some (ct, t) →
          encrypt m' k input' nonce data' output' = some (ct', t') →
          clamp (leNat ((oneTimeKey key nonce).take 16)) ∈ S := by
  obtain ⟨S, hS, hall⟩ := C62_ccp_forgery data ct t data' ct' t' h1 h2 h3 h4 hne
  refine ⟨S, hS, fun key k hk m m' nonce input output input' output' h h' => ?_⟩
  exact hall key k hk m m' input nonce output (zeros ct'.length) input' h
    (C32_roundtrip m' key k input' nonce data' output' ct' t' hk h' _ (by simp))

/-- What the code may make of the accumulator `a` of RFC 8439 before it adds the second half of the one-time key: `a`
itself or, for the rare `a < 2^31`, possibly the wrong reduction (C51). -/
def residues (a : Nat) : List Nat := if 2 ^ 31 ≤ a then [a] else [a, leNat (wrongReduction a)]

theorem poly_residue {m : Mode} {key data ct t : Bytes} (hk : key.length = 32) (h : poly1305 m key data ct = some t) :
    ∃ x ∈ residues (Spec.Poly1305.acc key (macData data ct)), t = toLE 16 (x + leNat (key.drop 16)) := by
  rcases C29_cases key data ct hk with hc | ⟨hs, hc⟩
  · rw [hc m] at h
    refine ⟨_, ?_, (Option.some.inj h).symm⟩
    unfold residues
    split <;> simp
  · rw [hc m] at h
    refine ⟨_, ?_, (Option.some.inj h).symm⟩
    unfold residues
    rw [if_neg (by omega)]
    simp

/-- And the multiplier `r`, with one observed encryption, is all one needs to forge under that nonce: for any data and
ciphertext, the observed tag minus the one accumulator plus the other is accepted. -/
theorem C98_multiplier_suffices_to_forge (key k : Bytes) (hk : Model.Poly1305.new key = some k) (m m' : Mode)
    (input nonce data output ct t : Bytes) (h : encrypt m k input nonce data output = some (ct, t))
    (r : Nat) (hr : r = clamp (leNat ((oneTimeKey key nonce).take 16)))
    (data' ct' buf : Bytes) (hc : (ct'.length + 63) / 64 < 2 ^ 32 - 2) (hb : buf.length = ct'.length) :
    ∃ x ∈ residues (Spec.Poly1305.accumulate r (chunks 16 (macData data ct))),
    ∃ y ∈ residues (Spec.Poly1305.accumulate r (chunks 16 (macData data' ct'))),
    ∃ out, decrypt m' k ct' nonce data' (toLE 16 (leNat t + (2 ^ 128 - x % 2 ^ 128) + y)) buf = some (out, true) := by
  subst hr
  have hk0 := hk
  obtain ⟨rfl, hk⟩ := new_eq hk
  obtain ⟨hp, -, -, ht⟩ := ccp_encrypt_some hk h
  have hol : (oneTimeKey k nonce).length = 32 := by
    unfold oneTimeKey
    rw [List.length_take, Proofs.ChaCha20.spec_block_length]
    rfl
  obtain ⟨x, hx, ex⟩ := poly_residue hol (tag_poly m k nonce hk hp.2 data ct t ht)
  have hcl := Proofs.Poly1305.crypt_length k nonce ct'
  obtain ⟨t2, e2, ht2⟩ := (ccp_encrypt m' k (Spec.Poly1305.crypt k nonce ct') nonce data' buf hk).2
    ⟨⟨by rw [hcl]; exact hb.symm, hp.2⟩, .inr (by rw [hcl]; exact hc)⟩
  rw [Proofs.Poly1305.crypt_involutive] at e2 ht2
  obtain ⟨y, hy, ey⟩ := poly_residue hol (tag_poly m' k nonce hk hp.2 data' ct' t2 ht2)
  refine ⟨x, hx, y, hy, Spec.Poly1305.crypt k nonce ct', ?_⟩
  rw [show toLE 16 (leNat t + (2 ^ 128 - x % 2 ^ 128) + y) = t2 from ?_]
  · exact C32_roundtrip m' k k _ nonce data' buf ct' t2 hk0 e2 buf hb
  · rw [ex, ey]
    apply leNat_inj (by simp)
    rw [leNat_toLE, leNat_toLE, leNat_toLE]
    generalize leNat ((oneTimeKey k nonce).drop 16) = s
    norm_num
    omega

/-- The same for accumulators of at least `2^31`: there is one tag to try. -/
theorem C98_forged_tag (key k : Bytes) (hk : Model.Poly1305.new key = some k) (m m' : Mode)
    (input nonce data output ct t : Bytes) (h : encrypt m k input nonce data output = some (ct, t))
    (r : Nat) (hr : r = clamp (leNat ((oneTimeKey key nonce).take 16)))
    (data' ct' buf : Bytes) (hc : (ct'.length + 63) / 64 < 2 ^ 32 - 2) (hb : buf.length = ct'.length)
    (a a' : Nat) (ha : a = Spec.Poly1305.accumulate r (chunks 16 (macData data ct)))
    (ha' : a' = Spec.Poly1305.accumulate r (chunks 16 (macData data' ct'))) (hl : 2 ^ 31 ≤ a) (hl' : 2 ^ 31 ≤ a') :
    ∃ out, decrypt m' k ct' nonce data' (toLE 16 (leNat t + (2 ^ 128 - a % 2 ^ 128) + a')) buf = some (out, true) := by
  obtain ⟨x, hx, y, hy, out, ho⟩ := C98_multiplier_suffices_to_forge key k hk m m' input nonce data output ct t h r hr
    data' ct' buf hc hb
  rw [← ha, residues, if_pos hl, List.mem_singleton] at hx
  rw [← ha', residues, if_pos hl', List.mem_singleton] at hy
  subst hx hy
  exact ⟨out, ho⟩

/-- An encryption of three bytes and its nonce; the multiplier is public here, and the tag of the formula makes `decrypt`
accept a ciphertext that was never made. -/
example : ∃ ct t, encrypt .debug devKey [1, 2, 3] (zeros 12) [7] (zeros 3) = some (ct, t) ∧
    2 ^ 31 ≤ Spec.Poly1305.acc (oneTimeKey devKey (zeros 12)) (macData [7] ct) ∧
    2 ^ 31 ≤ Spec.Poly1305.acc (oneTimeKey devKey (zeros 12)) (macData [] [9, 9]) ∧
    ∃ out, decrypt .debug devKey [9, 9] (zeros 12) []
      (toLE 16 (leNat t + (2 ^ 128 - Spec.Poly1305.acc (oneTimeKey devKey (zeros 12)) (macData [7] ct) % 2 ^ 128) +
        Spec.Poly1305.acc (oneTimeKey devKey (zeros 12)) (macData [] [9, 9]))) (zeros 2) = some (out, true) := by
  have h0 : (encrypt .debug devKey [1, 2, 3] (zeros 12) [7] (zeros 3)).isSome := by decide +kernel
  obtain ⟨⟨ct, t⟩, h⟩ := Option.isSome_iff_exists.mp h0
  have e : ct = ((encrypt .debug devKey [1, 2, 3] (zeros 12) [7] (zeros 3)).getD ([], [])).1 := by rw [h]; rfl
  have hr := oneTimeKey_eq devKey (zeros 12) (by decide) (by simp)
  have l1 : 2 ^ 31 ≤ Spec.Poly1305.acc (oneTimeKey devKey (zeros 12)) (macData [7] ct) := by
    rw [e, hr]; decide +kernel
  have l2 : 2 ^ 31 ≤ Spec.Poly1305.acc (oneTimeKey devKey (zeros 12)) (macData [] [9, 9]) := by
    rw [hr]; decide +kernel
  exact ⟨ct, t, h, l1, l2, C98_forged_tag devKey devKey rfl .debug .debug _ _ _ _ ct t h _ rfl [] [9, 9] (zeros 2)
    (by decide) (by simp) _ _ rfl rfl l1 l2⟩

/-! ## Further concrete cases -/

/-- Two encryptions under the same nonce: the multiplier is one of at most `1480 * 3` numbers that the observer can compute. -/
example (ct t ct' t' : Bytes) (hc : ct.length = 3) (hc' : ct'.length = 2)
    (h : encrypt .debug devKey [1, 2, 3] (zeros 12) [7] (zeros 3) = some (ct, t))
    (h' : encrypt .debug devKey [5, 5] (zeros 12) [] (zeros 2) = some (ct', t')) :
    ∃ S : Finset Nat, S.card ≤ 1480 * 3 ∧ clamp (leNat ((oneTimeKey devKey (zeros 12)).take 16)) ∈ S := by
  obtain ⟨S, hS, hin⟩ := C98_nonce_reuse_exposes_multiplier [7] ct t [] ct' t' (by simp) (by omega) (by simp) (by omega) (by simp)
  refine ⟨S, hS.trans (Nat.mul_le_mul_left _ ?_), hin devKey devKey (by decide +kernel) .debug .debug (zeros 12) _ _ _ _ h h'⟩
  simp [ccpBlocks, hc, hc']

example (ct t : Bytes) (h : encrypt .debug devKey [1, 2, 3] (zeros 12) [7] (zeros 3) = some (ct, t)) :=
  C98_multiplier_suffices_to_forge devKey devKey (by decide +kernel) .debug .release _ _ _ _ ct t h _ rfl [] [9, 9] (zeros 2) (by decide) (by decide)

end CryptoPure.Props
