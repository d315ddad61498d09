import Verif.Proofs.GHashUniversal
import Verif.Props.Gcm

/-! # Property C61: how little a GCM forger can hope for -/

namespace CryptoPure.Props
open CryptoPure.Model CryptoPure.Model.Aes

attribute [local irreducible] permute keyExpansion Spec.Aes.cipher toBE

/-- The ring in which `C18_ghash` evaluates is a field. -/
theorem C61_field : IsField Spec.GF128.K := Proofs.GF128Field.isField_K

/-- Number of 16-byte blocks that are authenticated: data, ciphertext, and one block of lengths. -/
def gcmBlocks (data ciphertext : Bytes) : Nat := (data.length + 15) / 16 + (ciphertext.length + 15) / 16 + 1

/-- Fix an observed encryption `(data, ct, t)` and a forgery attempt `(data', ct', t')` for a different pair of data and
ciphertext. There are at most `max (gcmBlocks data ct) (gcmBlocks data' ct')` 16-byte strings such that, whatever the block
cipher, its key, the nonce, the message and the build mode: if encrypting produced `ct` and `t` with `data`, and decrypting
accepts the attempt under the same nonce, the block cipher maps the zero block to one of those strings. -/
theorem C61_gcm_forgery_any_cipher (data ct t data' ct' t' : Bytes) (hne : (data', ct') ≠ (data, ct)) :
    ∃ S : Finset Bytes, S.card ≤ max (gcmBlocks data ct) (gcmBlocks data' ct') ∧
      ∀ (E : BlockCipher) (st : E.State), (∀ x : Bytes, x.length = 16 → (E.permute st x).length = 16) →
        ∀ (m m' : Mode) (input nonce output output' out' : Bytes),
          Model.Gcm.encrypt E m st input nonce data output = some (ct, t) →
          Model.Gcm.decrypt E m' st ct' nonce data' t' output' = some (out', true) →
          E.permute st (zeros 16) ∈ S := by
  by_cases hlen : data.length < 2 ^ 61 ∧ ct.length < 2 ^ 61 ∧ data'.length < 2 ^ 61 ∧ ct'.length < 2 ^ 61
  · obtain ⟨h1, h2, h3, h4⟩ := hlen
    obtain ⟨S, hS, hall⟩ := Proofs.GHashUniversal.tag_set data ct t data' ct' t' h1 h2 h3 h4 (fun h => hne (by
      obtain ⟨e1, e2⟩ := C24_ghash_blocks _ _ _ _ h1 h2 h3 h4 h
      rw [e1, e2]))
    rw [Proofs.GHashUniversal.authBlocks_length, Proofs.GHashUniversal.authBlocks_length] at hS
    refine ⟨S, hS, fun E st hE m m' input nonce output output' out' he hd => ?_⟩
    have hn : nonce.length = 12 := by
      by_contra h
      rw [Proofs.Gcm.encrypt_none E st _ (fun _ _ => rfl) m input nonce data output (fun hp => h hp.1.1)] at he
      cases he
    refine hall (E.permute st) nonce hE hn (C19_encrypt_any_cipher E m st hE _ _ _ _ _ _ he).2 ?_
    by_cases hp : Proofs.Gcm.Permitted ct' nonce data' output'
    · rw [Proofs.Gcm.decrypt_eq E st _ (fun _ _ => rfl) hE m' ct' nonce data' t' output' hp] at hd
      by_contra ht
      rw [if_neg ht] at hd
      cases hd
    · rw [Proofs.Gcm.decrypt_none E st m' ct' nonce data' t' output' hp] at hd
      cases hd
  · refine ⟨∅, by simp, fun E st hE m m' input nonce output output' out' he hd => absurd ?_ hlen⟩
    have hp : Proofs.Gcm.Permitted input nonce data output := by
      by_contra h
      rw [Proofs.Gcm.encrypt_none E st _ (fun _ _ => rfl) m input nonce data output (fun hp => h hp.1)] at he
      cases he
    have hp' : Proofs.Gcm.Permitted ct' nonce data' output' := by
      by_contra h
      rw [Proofs.Gcm.decrypt_none E st m' ct' nonce data' t' output' h] at hd
      cases hd
    have hc := (C19_encrypt_any_cipher E m st hE _ _ _ _ _ _ he).1
    have hcl : ct.length = input.length := by rw [hc, Proofs.Gcm.crypt_length _ hE nonce hp.1]
    obtain ⟨_, _, p3, p4⟩ := hp
    obtain ⟨_, _, q3, q4⟩ := hp'
    exact ⟨p4, by omega, q4, by omega⟩

/-- The same for the three AES ciphers: a forgery under the nonce of an observed encryption is accepted only if AES under
the secret key sends the zero block into a set, known in advance, of at most that many blocks. -/
theorem C61_gcm_forgery (data ct t data' ct' t' : Bytes) (hne : (data', ct') ≠ (data, ct)) :
    ∃ S : Finset Bytes, S.card ≤ max (gcmBlocks data ct) (gcmBlocks data' ct') ∧
      ∀ (k : AesKind) (key : Bytes) (st : k.code.State), Model.Gcm.new k.code key = some st →
        ∀ (m m' : Mode) (input nonce output output' out' : Bytes),
          Model.Gcm.encrypt k.code m st input nonce data output = some (ct, t) →
          Model.Gcm.decrypt k.code m' st ct' nonce data' t' output' = some (out', true) →
          Spec.Aes.aes k.Nk key (zeros 16) ∈ S := by
  obtain ⟨S, hS, hall⟩ := C61_gcm_forgery_any_cipher data ct t data' ct' t' hne
  refine ⟨S, hS, fun k key st hk m m' input nonce output output' out' he hd => ?_⟩
  have h := hall k.code st (fun x hx => C16_length k key st hk x hx) m m' input nonce output output' out' he hd
  rw [aesBlock_eq k key st hk _ (by simp)] at h
  exact h

/-- A block cipher for which a forgery does succeed (it sends everything to zero): the hypotheses can be met, and the
theorem then says that the zero block is in `S`. -/
def weakCipher : BlockCipher where
  State := Unit
  new := fun _ => some ()
  permute := fun _ _ => zeros 16

example : Model.Gcm.encrypt weakCipher .debug () [7] (zeros 12) [] [0] = some ([7], zeros 16) ∧
    Model.Gcm.decrypt weakCipher .debug () [9] (zeros 12) [1] (zeros 16) [0] = some ([9], true) := by decide +kernel

/-- For messages of one block and no data the set has at most two elements. -/
example : max (gcmBlocks [] (zeros 16)) (gcmBlocks [] (zeros 16)) = 2 := by decide +kernel

/-! ## Further concrete cases -/

/-- For a message and a forgery of one block each, at most two hash keys let it pass. -/
example : ∃ S : Finset Bytes, S.card ≤ 2 ∧
    ∀ (k : AesKind) (key : Bytes) (st : k.code.State), Model.Gcm.new k.code key = some st →
      ∀ (m m' : Mode) (input nonce output output' out' : Bytes),
        Model.Gcm.encrypt k.code m st input nonce [] output = some (zeros 16, zeros 16) →
        Model.Gcm.decrypt k.code m' st (List.replicate 16 1) nonce [] (zeros 16) output' = some (out', true) →
        Spec.Aes.aes k.Nk key (zeros 16) ∈ S := by
  obtain ⟨S, h, h'⟩ := C61_gcm_forgery [] (zeros 16) (zeros 16) [] (List.replicate 16 1) (zeros 16) (by decide)
  exact ⟨S, h.trans (by decide), h'⟩

/-- The cipher above has its (zero) hash key in every such set. -/
example : ∃ S : Finset Bytes, S.card ≤ 3 ∧ zeros 16 ∈ S := by
  obtain ⟨S, h, h'⟩ := C61_gcm_forgery_any_cipher [] [7] (zeros 16) [1] [9] (zeros 16) (by decide)
  exact ⟨S, h.trans (by decide), h' weakCipher () (fun _ _ => rfl) .debug .debug [7] (zeros 12) [0] [0] [9] (by decide +kernel)
    (by decide +kernel)⟩

end CryptoPure.Props
