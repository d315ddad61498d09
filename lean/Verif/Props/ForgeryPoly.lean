import Verif.Proofs.Poly1305Universal
import Verif.Props.Forgery

/-! # Property C62: how little a ChaCha20-Poly1305 forger can hope for -/

namespace CryptoPure.Props
open CryptoPure.Model CryptoPure.Model.Poly1305
open CryptoPure.Spec.Poly1305 (clamp macData oneTimeKey)

/-- `2^130 - 5` is prime, so Poly1305 computes in a field. -/
theorem C62_prime : Nat.Prime Spec.Poly1305.P := Proofs.Poly1305Universal.prime_P

/-- Number of 16-byte blocks that are authenticated: data, ciphertext, and one block of lengths. -/
def ccpBlocks (data ciphertext : Bytes) : Nat := (data.length + 15) / 16 + (ciphertext.length + 15) / 16 + 1

theorem mac_blocks (a c : Bytes) :
    (∀ b ∈ chunks 16 (macData a c), b.length = 16) ∧ (chunks 16 (macData a c)).length = ccpBlocks a c := by
  have h := Proofs.Poly1305Universal.macData_length a c
  refine ⟨chunks_mem_length (by omega) (by omega), ?_⟩
  rw [chunks_length (by omega), h]
  unfold ccpBlocks
  omega

theorem leNat_tag {m : Mode} {key data ct t : Bytes} (hk : key.length = 32) (h : poly1305 m key data ct = some t) :
    leNat t < 2 ^ 128 := by
  obtain ⟨t', h1, h2⟩ := C30_no_overflow key data ct hk
  rw [h2 m] at h
  obtain rfl := Option.some.inj h
  have := leNat_lt t'
  rw [h1] at this
  exact this

set_option maxRecDepth 20000 in
/-- Fix two different pairs of data and ciphertext and a tag for each. There are at most
`1480 * max (ccpBlocks data ct) (ccpBlocks data' ct')` values of the clamped multiplier `r` (out of the `2^106` possible
ones) for which any one-time key makes the authenticator return both tags. (With a correct final reduction the factor
would be 8; 185 is the price of the reduction the code performs, see C51.) -/
theorem C62_poly1305_collisions (data ct t data' ct' t' : Bytes)
    (h1 : data.length < 2 ^ 64) (h2 : ct.length < 2 ^ 64) (h3 : data'.length < 2 ^ 64) (h4 : ct'.length < 2 ^ 64)
    (hne : (data', ct') ≠ (data, ct)) :
    ∃ S : Finset Nat, S.card ≤ 1480 * max (ccpBlocks data ct) (ccpBlocks data' ct') ∧
      ∀ (key : Bytes), key.length = 32 → ∀ m m' : Mode,
        poly1305 m key data ct = some t → poly1305 m' key data' ct' = some t' →
        clamp (leNat (key.take 16)) ∈ S := by
  have hb : chunks 16 (macData data ct) ≠ chunks 16 (macData data' ct') := by
    intro h
    have h := congrArg List.flatten h
    rw [chunks_flatten (by omega), chunks_flatten (by omega)] at h
    obtain ⟨e1, e2⟩ := C24_poly1305_data _ _ _ _ h1 h2 h3 h4 h
    exact hne (by rw [e1, e2])
  obtain ⟨S, hS, hall⟩ := Proofs.Poly1305Universal.key_set _ _ (leNat t) (leNat t') (mac_blocks data ct).1
    (mac_blocks data' ct').1 hb
  rw [(mac_blocks data ct).2, (mac_blocks data' ct').2] at hS
  refine ⟨S, hS, fun key hk m m' ht ht' => hall _ (Proofs.Poly1305Universal.clamp_lt _) ?_⟩
  obtain ⟨e, he, hte⟩ := Proofs.Poly1305Universal.tag_error m key data ct t hk ht
  obtain ⟨e', he', hte'⟩ := Proofs.Poly1305Universal.tag_error m' key data' ct' t' hk ht'
  exact Proofs.Poly1305Universal.mem_targets _ _ _ _ (leNat (key.drop 16)) e e'
    (Proofs.Poly1305Universal.accumulate_lt _ _) (Proofs.Poly1305Universal.accumulate_lt _ _) he he'
    (leNat_tag hk ht') rfl hte hte'

/-- The one-time key `encrypt` and `decrypt` use is that of RFC 8439. -/
theorem tag_poly (m : Mode) (key nonce : Bytes) (hk : key.length = 32) (hn : nonce.length = 12) (data ct t : Bytes)
    (h : tag m (ChaCha20.setupState key nonce) ct data = some t) :
    poly1305 m (oneTimeKey key nonce) data ct = some t := by
  have e : polyKeyGen (ChaCha20.setupState key nonce) = oneTimeKey key nonce := by
    unfold polyKeyGen oneTimeKey
    rw [Proofs.ChaCha20.block_eq key nonce hk hn]
  rw [← e]
  exact h

/-- Fix an observed encryption `(data, ct, t)` and a forgery attempt `(data', ct', t')` for a different pair of data and
ciphertext. There are at most `1480 * max (ccpBlocks data ct) (ccpBlocks data' ct')` numbers such that, whatever the key,
the nonce, the message and the build mode: if encrypting produced `ct` and `t` with `data`, and decrypting accepts the
attempt under the same nonce, then the clamped first half of the one-time key is one of those numbers. -/
theorem C62_ccp_forgery (data ct t data' ct' t' : Bytes)
    (h1 : data.length < 2 ^ 64) (h2 : ct.length < 2 ^ 64) (h3 : data'.length < 2 ^ 64) (h4 : ct'.length < 2 ^ 64)
    (hne : (data', ct') ≠ (data, ct)) :
    ∃ S : Finset Nat, S.card ≤ 1480 * max (ccpBlocks data ct) (ccpBlocks data' ct') ∧
      ∀ (key k : Bytes), Model.Poly1305.new key = some k →
        ∀ (m m' : Mode) (input nonce output output' out' : Bytes),
          encrypt m k input nonce data output = some (ct, t) →
          decrypt m' k ct' nonce data' t' output' = some (out', true) →
          clamp (leNat ((oneTimeKey key nonce).take 16)) ∈ S := by
  obtain ⟨S, hS, hall⟩ := C62_poly1305_collisions data ct t data' ct' t' h1 h2 h3 h4 hne
  refine ⟨S, hS, fun key k hk m m' input nonce output output' out' he hd => ?_⟩
  obtain ⟨rfl, hk⟩ := new_eq hk
  obtain ⟨hp, -, -, ht⟩ := ccp_encrypt_some hk he
  have hol : (oneTimeKey k nonce).length = 32 := by
    unfold oneTimeKey
    rw [List.length_take, Proofs.ChaCha20.spec_block_length]
    rfl
  refine hall _ hol m m' (tag_poly m k nonce hk hp.2 data ct t ht) (tag_poly m' k nonce hk hp.2 data' ct' t' ?_)
  unfold decrypt at hd
  simp only [Option.bind_eq_bind, Option.bind_eq_some_iff, assert_eq_some, beq_iff_eq] at hd
  obtain ⟨_, hl, c, hc, expected, he, okk, hv, hd⟩ := hd
  rw [chacha_new k nonce hk hp.2] at hc
  obtain rfl := Option.some.inj hc
  obtain ⟨t2, ht2, htl, -⟩ := Proofs.Poly1305.tag_exists k nonce hk hp.2 data' ct'
  rw [ht2 m'] at he ⊢
  obtain rfl := Option.some.inj he
  rw [C01_verify16 _ _ htl] at hv
  obtain rfl := Option.some.inj hv
  by_cases hte : t2 = t'
  · rw [hte]
  · simp [hte] at hd

/-- A one-time key whose multiplier is zero gives the same tag to everything: the hypotheses of
`C62_poly1305_collisions` can be met, and the theorem then says that `0 ∈ S`. -/
example : poly1305 .debug (zeros 16 ++ toBE 16 77) [1, 2] [3] = some (toBE 16 77) ∧
    poly1305 .debug (zeros 16 ++ toBE 16 77) [] [4, 5, 6] = some (toBE 16 77) ∧
    clamp (leNat ((zeros 16 ++ toBE 16 77).take 16)) = 0 := by decide +kernel

/-- The hypotheses of `C62_ccp_forgery` are met by a lucky guess of `t'` (here: the tag of a second message under the same
key and nonce). -/
example : ∃ ct t ct' t', encrypt .debug (zeros 32) [1, 2, 3] (zeros 12) [] (zeros 3) = some (ct, t) ∧
    decrypt .debug (zeros 32) ct' (zeros 12) [5] t' (zeros 3) = some ([7, 8, 9], true) ∧ ct ≠ ct' ∧ t ≠ t' :=
  ⟨((encrypt .debug (zeros 32) [1, 2, 3] (zeros 12) [] (zeros 3)).getD ([], [])).1,
   ((encrypt .debug (zeros 32) [1, 2, 3] (zeros 12) [] (zeros 3)).getD ([], [])).2,
   ((encrypt .debug (zeros 32) [7, 8, 9] (zeros 12) [5] (zeros 3)).getD ([], [])).1,
   ((encrypt .debug (zeros 32) [7, 8, 9] (zeros 12) [5] (zeros 3)).getD ([], [])).2, by decide +kernel⟩

/-! ## Further concrete cases -/

example : ∃ S : Finset Nat, S.card ≤ 1480 * 3 ∧ ∀ (key : Bytes), key.length = 32 → ∀ m m' : Mode,
    poly1305 m key [1, 2] [3] = some (zeros 16) → poly1305 m' key [] [4, 5, 6] = some (zeros 16) → clamp (leNat (key.take 16)) ∈ S := by
  obtain ⟨S, h, h'⟩ := C62_poly1305_collisions [1, 2] [3] (zeros 16) [] [4, 5, 6] (zeros 16) (by decide) (by decide) (by decide) (by decide) (by decide)
  exact ⟨S, h.trans (by decide), h'⟩

/-- The multiplier 0 is in the set for the two messages above, which have the same tag under it. -/
example : ∃ S : Finset Nat, S.card ≤ 1480 * 3 ∧ 0 ∈ S := by
  obtain ⟨S, h, h'⟩ := C62_poly1305_collisions [1, 2] [3] (toBE 16 77) [] [4, 5, 6] (toBE 16 77) (by decide) (by decide) (by decide) (by decide) (by decide)
  have := h' (zeros 16 ++ toBE 16 77) (by decide +kernel) .debug .debug (by decide +kernel) (by decide +kernel)
  rw [show clamp (leNat ((zeros 16 ++ toBE 16 77).take 16)) = 0 by decide +kernel] at this
  exact ⟨S, h.trans (by decide), this⟩

example : ∃ S : Finset Nat, S.card ≤ 1480 * 3 ∧ ∀ (key k : Bytes), Model.Poly1305.new key = some k →
    ∀ (m m' : Mode) (input nonce output output' out' : Bytes),
      encrypt m k input nonce [1] output = some ([2, 3], zeros 16) →
      decrypt m' k [2, 4] nonce [1] (zeros 16) output' = some (out', true) →
      clamp (leNat ((oneTimeKey key nonce).take 16)) ∈ S := by
  obtain ⟨S, h, h'⟩ := C62_ccp_forgery [1] [2, 3] (zeros 16) [1] [2, 4] (zeros 16) (by decide) (by decide) (by decide) (by decide) (by decide)
  exact ⟨S, h.trans (by decide), h'⟩

end CryptoPure.Props
