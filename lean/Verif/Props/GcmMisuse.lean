import Verif.Props.Forgery

/-! # C77, C78 (and C23 across nonces): repeated nonces in GCM, and what a GCM tag does not bind -/

namespace CryptoPure.Props
open CryptoPure.Model CryptoPure.Model.Aes
open Spec.GF128 (elt K)
open Spec.Gcm (bits bytes ghash authBlocks)

attribute [local irreducible] permute keyExpansion Spec.Aes.cipher toBE

/-! ## C23, between messages -/

/-- Encryptions under one key with different nonces use disjoint sets of keystream and tag-mask blocks. -/
theorem C23_across_nonces (k : AesKind) (m m' : Mode) (key : Bytes) (st : k.code.State) (hk : Model.Gcm.new k.code key = some st)
    (input nonce data output out t input' nonce' data' output' out' t' : Bytes)
    (h : Model.Gcm.encrypt k.code m st input nonce data output = some (out, t))
    (h' : Model.Gcm.encrypt k.code m' st input' nonce' data' output' = some (out', t')) (hne : nonce ≠ nonce') :
    List.Disjoint (((nonce ++ [0, 0, 0, 1]) :: gcmCounters nonce input.length).map (k.code.permute st))
      (((nonce' ++ [0, 0, 0, 1]) :: gcmCounters nonce' input'.length).map (k.code.permute st)) := by
  have hn : ∀ (m : Mode) (input nonce data output out t : Bytes),
      Model.Gcm.encrypt k.code m st input nonce data output = some (out, t) → nonce.length = 12 := by
    intro m input nonce data output out t h
    by_contra hc
    rw [Proofs.Gcm.encrypt_none k.code st _ (aesBlock_eq k key st hk) m input nonce data output (fun hp => hc hp.1.1)] at h
    cases h
  have n1 := hn _ _ _ _ _ _ _ h
  have n2 := hn _ _ _ _ _ _ _ h'
  have form : ∀ (nonce : Bytes) (n : Nat) (x : Bytes), nonce.length = 12 →
      x ∈ (nonce ++ [0, 0, 0, 1]) :: gcmCounters nonce n → x.length = 16 ∧ x.take 12 = nonce := by
    intro nonce n x hl hx
    rcases List.mem_cons.mp hx with rfl | hx
    · exact ⟨by simp [hl], List.take_left' hl⟩
    · unfold gcmCounters at hx
      obtain ⟨j, -, rfl⟩ := List.mem_map.mp hx
      exact ⟨by simp [hl], List.take_left' hl⟩
  intro y hy hy'
  obtain ⟨x, hx, rfl⟩ := List.mem_map.mp hy
  obtain ⟨x', hx', e⟩ := List.mem_map.mp hy'
  obtain ⟨l1, t1⟩ := form _ _ _ n1 hx
  obtain ⟨l2, t2⟩ := form _ _ _ n2 hx'
  obtain ⟨z, -, hz⟩ := C16_permutation k key st hk (k.code.permute st x) (C16_length k key st hk x l1)
  have : x = x' := by rw [hz x ⟨l1, rfl⟩, hz x' ⟨l2, e⟩]
  exact hne (by rw [← t1, ← t2, this])

/-! ## C77 -/

/-- C77. Two encryptions under one key and nonce, of different (data, ciphertext) pairs, confine the secret hash key to a set that
can be computed from what was sent, of at most as many elements as there are blocks. -/
theorem C77_nonce_reuse_exposes_hash_key (data ct t data' ct' t' : Bytes) (hne : (data', ct') ≠ (data, ct)) :
    ∃ S : Finset Bytes, S.card ≤ max (gcmBlocks data ct) (gcmBlocks data' ct') ∧
      ∀ (k : AesKind) (key : Bytes) (st : k.code.State), Model.Gcm.new k.code key = some st →
        ∀ (m m' : Mode) (nonce input output input' output' : Bytes),
          Model.Gcm.encrypt k.code m st input nonce data output = some (ct, t) →
          Model.Gcm.encrypt k.code m' st input' nonce data' output' = some (ct', t') →
          Spec.Aes.aes k.Nk key (zeros 16) ∈ S := by
  obtain ⟨S, hS, hall⟩ := C61_gcm_forgery data ct t data' ct' t' hne
  refine ⟨S, hS, fun k key st hk m m' nonce input output input' output' h h' => ?_⟩
  exact hall k key st hk m m' input nonce output (zeros ct'.length) input' h
    (C20_roundtrip k m' key st hk input' nonce data' output' ct' t' h' _ (by simp))

theorem two_zero' (x : K) : x + x = 0 := Proofs.GHash.two_zero x

/-- In terms of bit strings: the tag is the hash xor the mask. -/
theorem bits_tag (F : Bytes → Bytes) (hF : ∀ x : Bytes, x.length = 16 → (F x).length = 16) (nonce a c : Bytes) (hn : nonce.length = 12) :
    bits (Spec.Gcm.tag F nonce a c) = ghash (bits (F (zeros 16))) (authBlocks a c) ^^^ bits (F (Spec.Gcm.J0 nonce)) := by
  have hJ := hF (Spec.Gcm.J0 nonce) (by simp [Spec.Gcm.J0, hn])
  rw [Spec.Gcm.tag, Proofs.Gcm.gctr_single F _ _ (Proofs.Gcm.bytes_length _),
    Proofs.GHashUniversal.bits_xor _ _ (by rw [hJ, Proofs.Gcm.bytes_length]), Proofs.GHashUniversal.bits_bytes]

theorem tag_length (F : Bytes → Bytes) (hF : ∀ x : Bytes, x.length = 16 → (F x).length = 16) (nonce a c : Bytes) (hn : nonce.length = 12) :
    (Spec.Gcm.tag F nonce a c).length = 16 := by
  have hJ := hF (Spec.Gcm.J0 nonce) (by simp [Spec.Gcm.J0, hn])
  rw [Spec.Gcm.tag, Proofs.Gcm.gctr_single F _ _ (Proofs.Gcm.bytes_length _)]
  simp [xorBytes, hJ, Proofs.Gcm.bytes_length]

/-- C77. And the hash key, with one observed encryption, is all one needs to forge under that nonce: for any data and ciphertext the tag
`t xor GHASH(data, ct) xor GHASH(data', ct')` is accepted. -/
theorem C77_hash_key_suffices_to_forge (k : AesKind) (m m' : Mode) (key : Bytes) (st : k.code.State)
    (hk : Model.Gcm.new k.code key = some st) (input nonce data output ct t : Bytes)
    (h : Model.Gcm.encrypt k.code m st input nonce data output = some (ct, t))
    (data' ct' buf : Bytes) (hd : data'.length < 2 ^ 61) (hc : ct'.length ≤ 16 * (2 ^ 32 - 4)) (hb : buf.length = ct'.length) :
    ∃ out, Model.Gcm.decrypt k.code m' st ct' nonce data'
      (bytes (bits t ^^^ ghash (bits (Spec.Aes.aes k.Nk key (zeros 16))) (authBlocks data ct) ^^^
        ghash (bits (Spec.Aes.aes k.Nk key (zeros 16))) (authBlocks data' ct'))) buf = some (out, true) := by
  have hF := aesBlock_eq k key st hk
  have hlen := aesBlock_length k key st hk
  have hn : nonce.length = 12 := by
    by_contra hc
    rw [Proofs.Gcm.encrypt_none k.code st _ hF m input nonce data output (fun hp => hc hp.1.1)] at h
    cases h
  have ht := (C19_encrypt k m key st hk input nonce data output ct t h).2
  have hp : Proofs.Gcm.Permitted ct' nonce data' buf := ⟨hn, hb.symm, by omega, hd⟩
  rw [Proofs.Gcm.decrypt_eq k.code st _ hF hlen m' ct' nonce data' _ buf hp, if_pos, if_pos (.inr (by omega))]
  · exact ⟨_, rfl⟩
  · have e : Spec.Aes.aes k.Nk key (zeros 16) = aesBlock k key (zeros 16) := rfl
    rw [e, ht, bits_tag _ hlen _ _ _ hn, ← Proofs.GHashUniversal.bytes_bits _ (tag_length _ hlen nonce data' ct' hn),
      bits_tag _ hlen _ _ _ hn]
    congr 1
    generalize ghash _ (authBlocks data ct) = x
    generalize ghash _ (authBlocks data' ct') = y
    rw [BitVec.xor_comm x, BitVec.xor_assoc _ x x, BitVec.xor_self, BitVec.xor_zero, BitVec.xor_comm]

/-! ## C78 -/

theorem elt_surjective : Function.Surjective elt := by
  let e : Fin (2 ^ 128) ≃ BitVec 128 := ⟨BitVec.ofFin, BitVec.toFin, fun _ => rfl, fun _ => rfl⟩
  have h : Function.Bijective (fun i => elt (e i)) :=
    (Fintype.bijective_iff_injective_and_card _).mpr ⟨Proofs.GHash.elt_injective.comp e.injective, by
      rw [Proofs.GF128Field.card_K, Fintype.card_fin]⟩
  intro y
  obtain ⟨i, hi⟩ := h.2 y
  exact ⟨e i, hi⟩

/-- The hash of data and a ciphertext that ends with a whole block. -/
theorem elt_ghash_last (h : BitVec 128) (a p c : Bytes) (hp : p.length % 16 = 0) (hc : c.length = 16) :
    elt (ghash h (authBlocks a (p ++ c))) =
      ((elt (ghash h (chunks 16 (Spec.Gcm.pad16 a) ++ chunks 16 p)) + elt (bits c)) * elt h +
        elt (bits (toBE 8 (8 * a.length) ++ toBE 8 (8 * (p.length + 16))))) * elt h := by
  have hpad : Spec.Gcm.pad16 (p ++ c) = p ++ c := by
    unfold Spec.Gcm.pad16
    rw [show (16 - (p ++ c).length % 16) % 16 = 0 by rw [List.length_append, hc]; omega]
    simp [zeros]
  rw [Proofs.GHash.authBlocks_eq, hpad, chunks_append (by omega) hp,
    chunks_singleton (l := c) (by intro h; simp [h] at hc) (by omega), List.length_append, hc, ← List.append_assoc]
  unfold ghash
  rw [List.foldl_append, List.foldl_append, List.foldl_cons, List.foldl_nil, List.foldl_cons, List.foldl_nil,
    Proofs.GHash.elt_mul, Proofs.GHash.elt_xor, Proofs.GHash.elt_mul, Proofs.GHash.elt_xor]

/-- C78. GCM does not commit to the key, whatever the block ciphers: for any two keys whose ciphers differ on the zero block, any
nonce, any data and any beginning `p` of a ciphertext (whole blocks), one more block can be chosen such that the ciphertext is accepted with the
same tag under both keys. -/
theorem C78_any_cipher (E E' : BlockCipher) (st : E.State) (st' : E'.State)
    (hE : ∀ x : Bytes, x.length = 16 → (E.permute st x).length = 16)
    (hE' : ∀ x : Bytes, x.length = 16 → (E'.permute st' x).length = 16)
    (hne : E.permute st (zeros 16) ≠ E'.permute st' (zeros 16))
    (nonce data p : Bytes) (hn : nonce.length = 12) (hd : data.length < 2 ^ 61) (hp : p.length % 16 = 0)
    (hpl : p.length < 16 * (2 ^ 32 - 4)) :
    ∃ c t : Bytes, c.length = 16 ∧ t.length = 16 ∧ ∀ (m m' : Mode) (buf buf' : Bytes), buf.length = p.length + 16 →
      buf'.length = p.length + 16 →
      (∃ out, Model.Gcm.decrypt E m st (p ++ c) nonce data t buf = some (out, true)) ∧
      (∃ out, Model.Gcm.decrypt E' m' st' (p ++ c) nonce data t buf' = some (out, true)) := by
  set h1 := bits (E.permute st (zeros 16)) with eh1
  set h2 := bits (E'.permute st' (zeros 16)) with eh2
  have hh : elt h1 + elt h2 ≠ 0 := by
    intro h
    have h3 : elt h1 = elt h2 := by
      have := two_zero' (elt h2)
      linear_combination h - this
    exact hne (Proofs.GHashUniversal.bits_inj (hE _ (by simp)) (hE' _ (by simp)) h3)
  obtain ⟨inv, hinv⟩ := Proofs.GF128Field.isField_K.mul_inv_cancel hh
  let g1 := elt (ghash h1 (chunks 16 (Spec.Gcm.pad16 data) ++ chunks 16 p))
  let g2 := elt (ghash h2 (chunks 16 (Spec.Gcm.pad16 data) ++ chunks 16 p))
  let l := elt (bits (toBE 8 (8 * data.length) ++ toBE 8 (8 * (p.length + 16))))
  let e1 := elt (bits (E.permute st (Spec.Gcm.J0 nonce)))
  let e2 := elt (bits (E'.permute st' (Spec.Gcm.J0 nonce)))
  obtain ⟨cb, hcb⟩ := elt_surjective
    ((g1 * elt h1 ^ 2 + l * elt h1 + e1 + (g2 * elt h2 ^ 2 + l * elt h2 + e2)) * inv ^ 2)
  let c := bytes cb
  have hcl : c.length = 16 := Proofs.Gcm.bytes_length _
  have hcb' : bits c = cb := Proofs.GHashUniversal.bits_bytes cb
  have heq : Spec.Gcm.tag (E.permute st) nonce data (p ++ c) = Spec.Gcm.tag (E'.permute st') nonce data (p ++ c) := by
    refine Proofs.GHashUniversal.bits_inj (tag_length _ hE _ _ _ hn) (tag_length _ hE' _ _ _ hn) ?_
    rw [bits_tag _ hE _ _ _ hn, bits_tag _ hE' _ _ _ hn, Proofs.GHash.elt_xor, Proofs.GHash.elt_xor, ← eh1, ← eh2,
      elt_ghash_last _ _ _ _ hp hcl, elt_ghash_last _ _ _ _ hp hcl, hcb', hcb]
    change ((g1 + _) * elt h1 + l) * elt h1 + e1 = ((g2 + _) * elt h2 + l) * elt h2 + e2
    have t2 : ∀ x : K, 2 * x = 0 := fun x => by rw [two_mul]; exact two_zero' x
    have hsq : (elt h1 ^ 2 + elt h2 ^ 2) * inv ^ 2 = 1 := by
      have : (elt h1 + elt h2) ^ 2 * inv ^ 2 = 1 := by rw [← mul_pow, hinv, one_pow]
      linear_combination this - t2 (elt h1 * elt h2 * inv ^ 2)
    linear_combination (g1 * elt h1 ^ 2 + l * elt h1 + e1 + (g2 * elt h2 ^ 2 + l * elt h2 + e2)) * hsq +
      t2 (g1 * elt h1 ^ 2 + l * elt h1 + e1) -
      t2 ((g1 * elt h1 ^ 2 + l * elt h1 + e1 + (g2 * elt h2 ^ 2 + l * elt h2 + e2)) * inv ^ 2 * elt h2 ^ 2)
  refine ⟨c, _, hcl, tag_length _ hE nonce data (p ++ c) hn, fun m m' buf buf' hb hb' => ?_⟩
  have hl : (p ++ c).length = p.length + 16 := by rw [List.length_append, hcl]
  constructor
  · rw [Proofs.Gcm.decrypt_eq E st _ (fun _ _ => rfl) hE m (p ++ c) nonce data _ buf ⟨hn, by omega, by omega, hd⟩, if_pos rfl,
      if_pos (.inr (by omega))]
    exact ⟨_, rfl⟩
  · rw [Proofs.Gcm.decrypt_eq E' st' _ (fun _ _ => rfl) hE' m' (p ++ c) nonce data _ buf' ⟨hn, by omega, by omega, hd⟩, if_pos heq,
      if_pos (.inr (by omega))]
    exact ⟨_, rfl⟩

/-- C78 for AES, also with different key sizes. -/
theorem C78_not_key_committing (k k' : AesKind) (key key' : Bytes) (st : k.code.State) (st' : k'.code.State)
    (hk : Model.Gcm.new k.code key = some st) (hk' : Model.Gcm.new k'.code key' = some st')
    (hne : Spec.Aes.aes k.Nk key (zeros 16) ≠ Spec.Aes.aes k'.Nk key' (zeros 16))
    (nonce data p : Bytes) (hn : nonce.length = 12) (hd : data.length < 2 ^ 61) (hp : p.length % 16 = 0)
    (hpl : p.length < 16 * (2 ^ 32 - 4)) :
    ∃ c t : Bytes, c.length = 16 ∧ t.length = 16 ∧ ∀ (m m' : Mode) (buf buf' : Bytes), buf.length = p.length + 16 →
      buf'.length = p.length + 16 →
      (∃ out, Model.Gcm.decrypt k.code m st (p ++ c) nonce data t buf = some (out, true)) ∧
      (∃ out, Model.Gcm.decrypt k'.code m' st' (p ++ c) nonce data t buf' = some (out, true)) := by
  refine C78_any_cipher k.code k'.code st st' (fun x hx => C16_length k key st hk x hx)
    (fun x hx => C16_length k' key' st' hk' x hx) ?_ nonce data p hn hd hp hpl
  rw [aesBlock_eq k key st hk _ (by simp), aesBlock_eq k' key' st' hk' _ (by simp)]
  exact hne

/-- Two AES-128 keys that differ on the zero block. -/
theorem keys_differ : Spec.Aes.aes 4 (zeros 16) (zeros 16) ≠ Spec.Aes.aes 4 (1 :: zeros 15) (zeros 16) := by
  have e : (keyExpansion 4 (zeros 16)).map (fun st => permute 4 st (zeros 16)) ≠
      (keyExpansion 4 (1 :: zeros 15)).map (fun st => permute 4 st (zeros 16)) := by decide +kernel
  intro h
  apply e
  obtain ⟨st, h1⟩ : ∃ st, keyExpansion 4 (zeros 16) = some st :=
    Option.ne_none_iff_exists'.mp (fun h => (C17_key_length .aes128 (zeros 16)).mp h (by simp [AesKind.Nk]))
  obtain ⟨st', h1'⟩ : ∃ st, keyExpansion 4 (1 :: zeros 15) = some st :=
    Option.ne_none_iff_exists'.mp (fun h => (C17_key_length .aes128 (1 :: zeros 15)).mp h (by simp [AesKind.Nk]))
  have e1 : permute 4 st (zeros 16) = _ := C15_fips197 .aes128 _ (zeros 16) (by simp) st h1
  have e2 : permute 4 st' (zeros 16) = _ := C15_fips197 .aes128 _ (zeros 16) (by simp) st' h1'
  rw [h1, h1', Option.map_some, Option.map_some, e1, e2]
  exact congrArg some h

/-- The hypotheses of C77 can be met: two encryptions with one nonce. -/
example : ∃ st ct t ct' t', Model.Gcm.new Aes128 (zeros 16) = some st ∧
    Model.Gcm.encrypt Aes128 .debug st [1] (zeros 12) [] [0] = some (ct, t) ∧
    Model.Gcm.encrypt Aes128 .debug st [2] (zeros 12) [7] [0] = some (ct', t') ∧ (([7] : Bytes), ct') ≠ ([], ct) := by
  obtain ⟨st, ct, t, h1, h2⟩ := gcm_reachable .aes128 .debug (zeros 16) [1] (zeros 12) [] [0]
    (by simp [AesKind.Nk]) (by simp) (by simp) (by simp) (by simp)
  obtain ⟨st', ct', t', h1', h2'⟩ := gcm_reachable .aes128 .debug (zeros 16) [2] (zeros 12) [7] [0]
    (by simp [AesKind.Nk]) (by simp) (by simp) (by simp) (by simp)
  rw [h1] at h1'
  cases h1'
  exact ⟨st, ct, t, ct', t', h1, h2, h2', by simp⟩

/-! ## Further concrete cases -/

/-- Under two nonces no block is encrypted twice. -/
example : ∃ st ct t ct' t', Model.Gcm.new Aes128 (zeros 16) = some st ∧
    Model.Gcm.encrypt Aes128 .debug st (zeros 40) (zeros 12) [] (zeros 40) = some (ct, t) ∧
    Model.Gcm.encrypt Aes128 .debug st (zeros 20) (1 :: zeros 11) [] (zeros 20) = some (ct', t') ∧
    List.Disjoint (((zeros 12 ++ [0, 0, 0, 1]) :: gcmCounters (zeros 12) 40).map (Aes128.permute st))
      (((1 :: zeros 11 ++ [0, 0, 0, 1]) :: gcmCounters (1 :: zeros 11) 20).map (Aes128.permute st)) := by
  obtain ⟨st, ct, t, hst, h⟩ := gcm_reachable .aes128 .debug (zeros 16) (zeros 40) (zeros 12) [] (zeros 40)
    (by simp [AesKind.Nk]) (by simp) (by simp) (by simp) (by simp)
  obtain ⟨st', ct', t', hst', h'⟩ := gcm_reachable .aes128 .debug (zeros 16) (zeros 20) (1 :: zeros 11) [] (zeros 20)
    (by simp [AesKind.Nk]) (by simp) (by simp) (by simp) (by simp)
  rw [hst] at hst'; cases hst'
  have := C23_across_nonces .aes128 .debug .debug (zeros 16) st hst _ _ _ _ _ _ _ _ _ _ _ _ h h' (by decide)
  simp only [zeros_length] at this
  exact ⟨st, ct, t, ct', t', hst, h, h', this⟩

/-- One encryption and the hash key are enough to forge, here in another mode and with other data. -/
example : ∃ st ct t, Model.Gcm.new Aes128 (zeros 16) = some st ∧
    ∃ out, Model.Gcm.decrypt Aes128 .release st [1, 2, 3] (zeros 12) [4]
      (bytes (bits t ^^^ ghash (bits (Spec.Aes.aes 4 (zeros 16) (zeros 16))) (authBlocks [] ct) ^^^
        ghash (bits (Spec.Aes.aes 4 (zeros 16) (zeros 16))) (authBlocks [4] [1, 2, 3]))) (zeros 3) = some (out, true) := by
  obtain ⟨st, ct, t, hst, h⟩ := gcm_reachable .aes128 .debug (zeros 16) (zeros 40) (zeros 12) [] (zeros 40)
    (by simp [AesKind.Nk]) (by simp) (by simp) (by simp) (by simp)
  exact ⟨st, ct, t, hst, C77_hash_key_suffices_to_forge .aes128 .debug .release (zeros 16) st hst _ _ _ _ ct t h [4] [1, 2, 3] (zeros 3)
    (by decide) (by decide) (by decide)⟩

example (ct t ct' t' : Bytes) := C77_nonce_reuse_exposes_hash_key [] ct t [7] ct' t' (by simp)

/-- A ciphertext of three blocks whose first two are chosen freely, valid under two keys. -/
example (p : Bytes) (hp : p.length = 32) (st st' : Aes128.State) (h : Model.Gcm.new Aes128 (zeros 16) = some st)
    (h' : Model.Gcm.new Aes128 (1 :: zeros 15) = some st') :=
  C78_not_key_committing .aes128 .aes128 (zeros 16) (1 :: zeros 15) st st' h h' keys_differ (zeros 12) [] p (by simp) (by simp)
    (by omega) (by omega)

end CryptoPure.Props
