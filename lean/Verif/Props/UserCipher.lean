import Verif.Props.GcmMisuse

/-! # Property C96: GCM over a block cipher of the caller's own

`BlockCipher` is a public trait, and `Gcm<E>` takes any implementor. Nothing below asks that `permute` be a permutation,
only that it is a function from blocks to blocks (the Rust type `[u8; 16] -> [u8; 16]`); an implementor whose `permute`
panics or has hidden state is outside the model. -/

namespace CryptoPure.Props
open CryptoPure.Model CryptoPure.Model.Aes

/-- The type of `permute` in the trait: blocks of 16 bytes are sent to blocks of 16 bytes. -/
def MapsBlocks (E : BlockCipher) (st : E.State) : Prop := ∀ x : Bytes, x.length = 16 → (E.permute st x).length = 16

/-- The build with overflow checks can count the blocks of an `n`-byte message. -/
def Countable (m : Mode) (n : Nat) : Prop := m = .release ∨ (n + 15) / 16 ≤ 2 ^ 32 - 4

/-- `encrypt` panics exactly if the documented conditions fail or, with overflow checks, if the message has too many
blocks; otherwise it returns the ciphertext and tag of SP 800-38D with this cipher. -/
theorem C96_encrypt (E : BlockCipher) (m : Mode) (st : E.State) (hE : MapsBlocks E st) (input nonce data output : Bytes) :
    (GcmPermitted input nonce data output ∧ Countable m input.length →
      Model.Gcm.encrypt E m st input nonce data output =
        some (Spec.Gcm.crypt (E.permute st) nonce input,
          Spec.Gcm.tag (E.permute st) nonce data (Spec.Gcm.crypt (E.permute st) nonce input))) ∧
    (¬ (GcmPermitted input nonce data output ∧ Countable m input.length) →
      Model.Gcm.encrypt E m st input nonce data output = none) :=
  ⟨fun h => Proofs.Gcm.encrypt_ok E st _ (fun _ _ => rfl) hE m input nonce data output h.1 h.2,
    fun h => Proofs.Gcm.encrypt_none E st _ (fun _ _ => rfl) m input nonce data output h⟩

/-- `decrypt` returns true exactly for the tag of SP 800-38D with this cipher, and then writes the plaintext; otherwise
it leaves the buffer as it was. It panics exactly if the documented conditions fail or, with overflow checks, the tag is
right and the message has too many blocks. -/
theorem C96_decrypt (E : BlockCipher) (m : Mode) (st : E.State) (hE : MapsBlocks E st)
    (input nonce data t output : Bytes) :
    (¬ GcmPermitted input nonce data output → Model.Gcm.decrypt E m st input nonce data t output = none) ∧
    (GcmPermitted input nonce data output → t ≠ Spec.Gcm.tag (E.permute st) nonce data input →
      Model.Gcm.decrypt E m st input nonce data t output = some (output, false)) ∧
    (GcmPermitted input nonce data output → t = Spec.Gcm.tag (E.permute st) nonce data input →
      (Countable m input.length →
        Model.Gcm.decrypt E m st input nonce data t output = some (Spec.Gcm.crypt (E.permute st) nonce input, true)) ∧
      (¬ Countable m input.length → Model.Gcm.decrypt E m st input nonce data t output = none)) := by
  refine ⟨fun h => Proofs.Gcm.decrypt_none E st m input nonce data t output h, fun hp ht => ?_, fun hp ht => ?_⟩
  · rw [Proofs.Gcm.decrypt_eq E st _ (fun _ _ => rfl) hE m input nonce data t output hp, if_neg ht]
  · rw [Proofs.Gcm.decrypt_eq E st _ (fun _ _ => rfl) hE m input nonce data t output hp, if_pos ht]
    exact ⟨fun h => if_pos h, fun h => if_neg h⟩

/-- GCM encryption keeps the length and is undone by decryption under the same cipher object, even if the cipher's block
function cannot be inverted. -/
theorem C96_roundtrip (E : BlockCipher) (m m' : Mode) (st : E.State) (hE : MapsBlocks E st)
    (message nonce data buf ciphertext t : Bytes)
    (h : Model.Gcm.encrypt E m st message nonce data buf = some (ciphertext, t))
    (buf' : Bytes) (hb : buf'.length = message.length) (hm : Countable m' message.length) :
    ciphertext.length = message.length ∧ t.length = 16 ∧
    Model.Gcm.decrypt E m' st ciphertext nonce data t buf' = some (message, true) := by
  by_cases hc : GcmPermitted message nonce data buf ∧ Countable m message.length
  swap
  · rw [(C96_encrypt E m st hE message nonce data buf).2 hc] at h
    cases h
  rw [(C96_encrypt E m st hE message nonce data buf).1 hc] at h
  have hp := hc.1
  obtain ⟨h1, h2⟩ := Prod.mk.inj (Option.some.inj h)
  have hl : ciphertext.length = message.length := by rw [← h1]; exact Proofs.Gcm.crypt_length _ hE nonce hp.1 _
  refine ⟨hl, ?_, ?_⟩
  · rw [← h2]
    exact tag_length _ hE _ _ _ hp.1
  · have hp' : GcmPermitted ciphertext nonce data buf' :=
      ⟨hp.1, by rw [hl, hb], by rw [hl]; exact hp.2.2.1, hp.2.2.2⟩
    rw [((C96_decrypt E m' st hE ciphertext nonce data t buf').2.2 hp' (by rw [← h2, h1])).1 (by rw [hl]; exact hm)]
    congr 2
    unfold Spec.Gcm.crypt Spec.Gcm.gctr at h1 ⊢
    rw [Proofs.Gcm.J0_eq, Proofs.Gcm.inc32_ctr _ hp.1, Proofs.Gcm.gctrBlocks_xor _ hE nonce hp.1] at h1 ⊢
    rw [hl, ← h1]
    apply xorBytes_cancel
    have hl2 := hl
    rw [← h1, xorBytes_length] at hl2
    omega

/-- C20 for every block cipher: in the same build mode nothing is assumed about the length. -/
theorem C20_roundtrip_any_cipher (E : BlockCipher) (m : Mode) (st : E.State) (hE : MapsBlocks E st)
    (message nonce data buf ciphertext t : Bytes)
    (h : Model.Gcm.encrypt E m st message nonce data buf = some (ciphertext, t))
    (buf' : Bytes) (hb : buf'.length = ciphertext.length) :
    Model.Gcm.decrypt E m st ciphertext nonce data t buf' = some (message, true) := by
  have hm : Countable m message.length := by
    by_contra hc
    rw [(C96_encrypt E m st hE message nonce data buf).2 (fun c => hc c.2)] at h
    cases h
  have hl := (C96_roundtrip E m m st hE message nonce data buf ciphertext t h (zeros message.length) (by simp) hm).1
  exact (C96_roundtrip E m m st hE message nonce data buf ciphertext t h buf' (by omega) hm).2.2

/-- A cipher of the caller's own that is not a permutation: every block becomes its first byte followed by zeros, xored
with the key byte. -/
def toyCipher : BlockCipher where
  State := U8
  new key := key.head?
  permute k x := (x.headD 0 ^^^ k) :: zeros 15

example : ∃ st out t, Model.Gcm.new toyCipher [7] = some st ∧ MapsBlocks toyCipher st ∧
    Model.Gcm.encrypt toyCipher .debug st [1, 2, 3] (zeros 12) [9] (zeros 3) = some (out, t) ∧ out = [6, 2, 3] ∧
    Model.Gcm.decrypt toyCipher .debug st out (zeros 12) [9] t (zeros 3) = some ([1, 2, 3], true) ∧
    Model.Gcm.decrypt toyCipher .debug st out (zeros 12) [8] t (zeros 3) = some (zeros 3, false) :=
  ⟨(7 : U8), [6, 2, 3], ((Model.Gcm.encrypt toyCipher .debug (7 : U8) [1, 2, 3] (zeros 12) [9] (zeros 3)).getD ([], [])).2,
    rfl, fun _ _ => rfl, by decide +kernel⟩

/-! ## Further concrete cases -/

example : Model.Gcm.encrypt toyCipher .debug (7 : U8) [1, 2] (zeros 12) [] [0, 0] =
    some (Spec.Gcm.crypt (toyCipher.permute (7 : U8)) (zeros 12) [1, 2],
      Spec.Gcm.tag (toyCipher.permute (7 : U8)) (zeros 12) [] (Spec.Gcm.crypt (toyCipher.permute (7 : U8)) (zeros 12) [1, 2])) :=
  (C96_encrypt toyCipher .debug (7 : U8) (fun _ _ => rfl) [1, 2] (zeros 12) [] [0, 0]).1 ⟨by simp [GcmPermitted], .inr (by simp)⟩

example : Model.Gcm.decrypt toyCipher .debug (7 : U8) [1, 2] (zeros 11) [] (zeros 16) [0, 0] = none :=
  (C96_decrypt toyCipher .debug (7 : U8) (fun _ _ => rfl) [1, 2] (zeros 11) [] (zeros 16) [0, 0]).1 (by simp [GcmPermitted])

example (ct t : Bytes) (h : Model.Gcm.encrypt toyCipher .debug (7 : U8) [1, 2] (zeros 12) [] [0, 0] = some (ct, t)) :
    Model.Gcm.decrypt toyCipher .release (7 : U8) ct (zeros 12) [] t [5, 5] = some ([1, 2], true) :=
  (C96_roundtrip toyCipher .debug .release (7 : U8) (fun _ _ => rfl) _ _ _ _ ct t h [5, 5] rfl (.inl rfl)).2.2

example (ct t : Bytes) (h : Model.Gcm.encrypt toyCipher .debug (7 : U8) [1, 2] (zeros 12) [] [0, 0] = some (ct, t)) (hl : ct.length = 2) :
    Model.Gcm.decrypt toyCipher .debug (7 : U8) ct (zeros 12) [] t [5, 5] = some ([1, 2], true) :=
  C20_roundtrip_any_cipher toyCipher .debug (7 : U8) (fun _ _ => rfl) _ _ _ _ ct t h [5, 5] hl.symm

end CryptoPure.Props
