import Verif.Props.ConstantTime
import Verif.Proofs.LeakVerify
import Verif.Proofs.WorkAead
import Verif.Proofs.WorkCurve
import Verif.Proofs.WorkEd
import Verif.Proofs.WorkHash

/-! # C115: no input makes a call slow

The work of a call is the length of its record (Verif/Leak/Basic.lean): the number of conditionals and loop tests it
evaluates and of memory accesses it makes, other than those at literal positions. Between two events of a record there is
straight-line code whose length does not depend on the input. The theorems bound the work by a number that depends on
the lengths of the public inputs only, and grows linearly with them: no key, nonce, message, ciphertext, tag or signature,
however chosen, makes a call loop or take longer than its length allows. Runs that panic or reject are included.

That the recorded functions are the modelled ones is stated by `C66_recorded` to `C71_recorded`, and for the check of an
Ed25519 signature by `C115_recorded`. The constants are upper bounds, not exact counts. -/

namespace CryptoPure.Props.Work
open CryptoPure.Props
open Leak (L)

/-- The number of events of a run. -/
def work {α : Type} (x : L α) : Nat := x.trace.length

/-- The notion is not empty: a loop over the input does as much work as the input is long. -/
example (x : Bytes) : work (Leak.each (fun b => (pure (b + 1) : L U8)) x) = x.length + 1 := by
  induction x with
  | nil => rfl
  | cons b x ih =>
    unfold work at ih ⊢
    simp only [Leak.each, Bind.bind, L.bind, Leak.branch, Pure.pure, L.pure] at ih ⊢
    cases h : (Leak.each (fun b => (⟨[], some (b + 1)⟩ : L U8)) x).val <;>
      simp only [List.length_append, List.length_cons, List.length_nil] at ih ⊢ <;> omega

/-- The recorded check of an Ed25519 signature is the modelled one. -/
theorem C115_recorded (msg sig pk : Bytes) :
    (Leak.Ed25519.verify msg sig pk).val = Model.Ed25519.verify .release msg sig pk :=
  Leak.Ed25519.verify_val msg sig pk

/-! ## Hashes, HMAC and HKDF -/

theorem hashWork (v : Variant) : ∃ φ W, Leak.Sha2.Work v.leak φ W := by
  cases v
  · exact ⟨_, _, Leak.Sha2.work_impl Leak.Sha2.sizes256 _ _ _ (by decide) (by decide)⟩
  · exact ⟨_, _, Leak.Sha2.work_impl Leak.Sha2.sizes256 _ _ _ (by decide) (by decide)⟩
  · exact ⟨_, _, Leak.Sha2.work_impl Leak.Sha2.sizes512 _ _ _ (by decide) (by decide)⟩
  · exact ⟨_, _, Leak.Sha2.work_impl Leak.Sha2.sizes512 _ _ _ (by decide) (by decide)⟩

/-- Hashing, in however many pieces. -/
theorem C115_hash (v : Variant) (parts : List Bytes) (out : Bytes) :
    work (hashRun v parts out) ≤ 8 * (parts.map List.length).sum + 17 * parts.length + 1511 := by
  obtain ⟨_, _, h⟩ := hashWork v
  exact (Leak.Sha2.parts_takes h parts out).steps

/-- HMAC, in however many pieces, with a key of any length. -/
theorem C115_hmac (v : Variant) (key : Bytes) (parts : List Bytes) :
    work (hmacRun v key parts) ≤ 8 * (key.length + (parts.map List.length).sum) + 17 * parts.length + 11602 := by
  obtain ⟨_, _, h⟩ := hashWork v
  exact (Leak.Hmac.parts_takes h key parts).steps

/-- Checking a tag of any length. -/
theorem C115_hmac_verify (v : Variant) (key msg tag : Bytes) :
    work (Leak.Hmac.verify v.leak key msg tag) ≤ 8 * (key.length + msg.length) + 12000 := by
  obtain ⟨_, _, h⟩ := hashWork v
  exact (Leak.Hmac.verify_takes h key msg tag).steps

/-- Extraction. -/
theorem C115_extract (v : Variant) (salt ikm prk : Bytes) :
    work (Leak.Hkdf.extract v.leak salt ikm prk) ≤ 8 * (salt.length + ikm.length) + 12000 := by
  obtain ⟨_, _, h⟩ := hashWork v
  exact (Leak.Hkdf.extract_takes h salt ikm prk).steps

/-- Expansion: one HMAC over `info` for each block of the output. -/
theorem C115_expand (v : Variant) (prk info okm : Bytes) :
    work (Leak.Hkdf.expand v.leak prk info okm) ≤
      (okm.length / v.leak.digestSize + 2) * (8 * (prk.length + info.length) + 12200) := by
  obtain ⟨_, _, h⟩ := hashWork v
  exact (Leak.Hkdf.expand_takes h prk info okm).steps

/-! ## AES, GCM and ChaCha20-Poly1305 -/

theorem AesKind.Nk_le (k : AesKind) : k.Nk ≤ 8 := by cases k <;> decide

/-- One block of AES, with the key schedule. -/
theorem C115_aes (k : AesKind) (key block : Bytes) (hb : block.length = 16) : work (aesRun k key block) ≤ 10700 := by
  have h1 := Leak.Aes.keyExpansion_takes k.Nk (AesKind.Nk_le k) key
  have h2 := fun st => Leak.Aes.permute_takes k.Nk (AesKind.Nk_le k) st block (by omega)
  exact (h1.seq fun st _ => h2 st).steps

theorem cheap (k : AesKind) : Leak.Gcm.Cheap k.leak 4700 := fun st b hb =>
  Leak.Aes.permute_takes k.Nk (AesKind.Nk_le k) st b hb

/-- Sealing with AES-GCM: one block of AES per block of the message and one multiplication per block of the message and
of the additional data. -/
theorem C115_gcm_encrypt (k : AesKind) (key input nonce data output : Bytes) :
    work (gcmEncryptRun k key input nonce data output) ≤
      (input.length / 16) * 4851 + (data.length / 16) * 133 + 20700 := by
  have h1 := Leak.Aes.keyExpansion_takes k.Nk (AesKind.Nk_le k) key
  exact ((h1.seq fun st _ => Leak.Gcm.encrypt_takes (cheap k) st input nonce data output).le (by omega)).steps

/-- Opening with AES-GCM, whether the tag is right or wrong and whatever its length. -/
theorem C115_gcm_decrypt (k : AesKind) (key input nonce data tag output : Bytes) :
    work (gcmDecryptRun k key input nonce data tag output) ≤
      (input.length / 16) * 4851 + (data.length / 16) * 133 + 20700 := by
  have h1 := Leak.Aes.keyExpansion_takes k.Nk (AesKind.Nk_le k) key
  exact ((h1.seq fun st _ => Leak.Gcm.decrypt_takes (cheap k) st input nonce data tag output).le (by omega)).steps

/-- The ChaCha20 stream, in however many pieces. -/
theorem C115_stream (key nonce : Bytes) (calls : List (Bytes × Bytes)) :
    work (streamRun key nonce calls) ≤ 48 * (calls.map fun c => c.1.length).sum + 3 * calls.length + 61 := by
  have h := Leak.within_loop_sum (φ := fun _ => 0) (P := Leak.ChaCha20.SmallS) (Q := fun _ => True)
    (c := fun c : Bytes × Bytes => 48 * c.1.length + 2)
    (f := fun s c => do
      let (_, s) ← Leak.ChaCha20.Stream.process s c.1 c.2
      pure s)
    (fun s c hs _ => (Leak.ChaCha20.process_takes s c.1 c.2 hs).step (N := 0 + (48 * c.1.length + 2)) fun r hr => Leak.takes_done hr) calls
  refine (((Leak.ChaCha20.stream_new_takes key nonce).seq fun s hs => h s (fun _ _ => trivial) hs).le ?_).steps
  have : ∀ l : List (Bytes × Bytes), (l.map fun c => 48 * c.1.length + 2).sum = 48 * (l.map fun c => c.1.length).sum + 2 * l.length := by
    intro l
    induction l with
    | nil => rfl
    | cons c l ih => simp only [List.map_cons, List.sum_cons, List.length_cons, ih]; omega
  have := this calls
  omega

/-- Sealing with ChaCha20-Poly1305. -/
theorem C115_ccp_encrypt (key input nonce data output : Bytes) :
    work (Leak.Poly1305.encrypt key input nonce data output) ≤
      (data.length / 16 + input.length / 16) * 975 + (input.length / 64) * 111 + 3200 :=
  (Leak.Poly1305.encrypt_takes key input nonce data output).steps

/-- Opening with ChaCha20-Poly1305, whether the tag is right or wrong and whatever its length. -/
theorem C115_ccp_decrypt (key input nonce data tag output : Bytes) :
    work (Leak.Poly1305.decrypt key input nonce data tag output) ≤
      (data.length / 16 + input.length / 16) * 975 + (input.length / 64) * 111 + 3200 :=
  (Leak.Poly1305.decrypt_takes key input nonce data tag output).steps

/-! ## X25519 and Ed25519 -/

/-- Key generation and key agreement take the same bounded number of steps on all inputs, of whatever lengths. -/
theorem C115_x25519 (sk pk : Bytes) : work (Leak.X25519.genPk sk) ≤ 24000 ∧ work (Leak.X25519.dh pk sk) ≤ 24000 := by
  unfold Leak.X25519.genPk Leak.X25519.dh
  exact ⟨(Leak.X25519.scalarmult_takes _ _).steps, (Leak.X25519.scalarmult_takes _ _).steps⟩

/-- Key generation and signing. -/
theorem C115_ed25519_sign (sk msg : Bytes) :
    work (Leak.Ed25519.genPk sk) ≤ 10000 ∧ work (Leak.Ed25519.sign msg sk) ≤ 16 * msg.length + 25000 :=
  ⟨(Leak.Ed25519.genPk_takes sk).steps, (Leak.Ed25519.sign_takes msg sk).steps⟩

/-- Checking a signature: no public key and no signature, well-formed or not, costs more than a fixed amount on top of
hashing the message. -/
theorem C115_ed25519_verify (msg sig pk : Bytes) : work (Leak.Ed25519.verify msg sig pk) ≤ 8 * msg.length + 1670000 :=
  (Leak.Ed25519.verify_takes msg sig pk).steps

/-! ## Concrete cases -/

example : work (hashRun .sha256 [[1, 2, 3], [], List.replicate 1000 7] (zeros 32)) ≤ 9586 :=
  (C115_hash .sha256 [[1, 2, 3], [], List.replicate 1000 7] (zeros 32)).trans (by simp only [List.map_cons, List.map_nil, List.sum_cons, List.sum_nil, List.length_cons, List.length_nil, List.length_replicate]; omega)

example : work (hmacRun .sha512 (List.replicate 500 1) [[1], [2]]) ≤ 15652 :=
  (C115_hmac .sha512 (List.replicate 500 1) [[1], [2]]).trans (by simp only [List.map_cons, List.map_nil, List.sum_cons, List.sum_nil, List.length_cons, List.length_nil, List.length_replicate]; omega)

example : work (Leak.Hmac.verify Variant.sha384.leak [1] [2] (List.replicate 100 0)) ≤ 12016 :=
  C115_hmac_verify .sha384 [1] [2] _

example : work (Leak.Hkdf.extract Variant.sha256.leak [1, 2] [] (zeros 32)) ≤ 12016 := C115_extract .sha256 [1, 2] [] _

example : work (Leak.Hkdf.expand Variant.sha256.leak (zeros 32) [] (zeros 64)) ≤ 49824 :=
  (C115_expand .sha256 (zeros 32) [] (zeros 64)).trans (by
    have : Variant.sha256.leak.digestSize = 32 := rfl
    rw [this]; simp only [zeros, List.length_nil, List.length_replicate]; omega)

example : work (aesRun .aes256 (zeros 32) (zeros 16)) ≤ 10700 := C115_aes _ _ _ (by simp [zeros])

example : work (gcmEncryptRun .aes128 (zeros 16) (zeros 160) (zeros 12) (zeros 32) (zeros 160)) ≤ 69476 :=
  (C115_gcm_encrypt .aes128 (zeros 16) (zeros 160) (zeros 12) (zeros 32) (zeros 160)).trans (by simp only [zeros, List.length_replicate]; omega)

example : work (gcmDecryptRun .aes192 (zeros 24) (zeros 160) (zeros 12) [] (List.replicate 1000 0) (zeros 160)) ≤ 69210 :=
  (C115_gcm_decrypt .aes192 (zeros 24) (zeros 160) (zeros 12) [] (List.replicate 1000 0) (zeros 160)).trans (by simp only [zeros, List.length_nil, List.length_replicate]; omega)

example : work (streamRun (zeros 32) (zeros 12) [([1], [0]), (zeros 100, zeros 100)]) ≤ 4915 :=
  (C115_stream (zeros 32) (zeros 12) [([1], [0]), (zeros 100, zeros 100)]).trans (by simp only [zeros, List.map_cons, List.map_nil, List.sum_cons, List.sum_nil, List.length_cons, List.length_nil, List.length_replicate]; omega)

example : work (Leak.Poly1305.encrypt (zeros 32) (zeros 64) (zeros 12) [] (zeros 64)) ≤ 7211 :=
  (C115_ccp_encrypt (zeros 32) (zeros 64) (zeros 12) [] (zeros 64)).trans (by simp only [zeros, List.length_nil, List.length_replicate]; omega)

example : work (Leak.Poly1305.decrypt (zeros 32) (zeros 64) (zeros 12) [] [] (zeros 64)) ≤ 7211 :=
  (C115_ccp_decrypt (zeros 32) (zeros 64) (zeros 12) [] [] (zeros 64)).trans (by simp only [zeros, List.length_nil, List.length_replicate]; omega)

example : work (Leak.X25519.dh (zeros 32) (zeros 32)) ≤ 24000 := (C115_x25519 _ _).2

example : work (Leak.Ed25519.sign [1, 2] (zeros 32)) ≤ 25032 := (C115_ed25519_sign _ [1, 2]).2

/-- A signature of the wrong length and one that is not a point. -/
example : work (Leak.Ed25519.verify [] [1, 2, 3] (zeros 32)) ≤ 1670000 ∧
    work (Leak.Ed25519.verify [] (List.replicate 64 0xff) (List.replicate 32 0xff)) ≤ 1670000 :=
  ⟨C115_ed25519_verify _ _ _, C115_ed25519_verify _ _ _⟩

/-- The record of the call is the call's: the first of the two panics. -/
example : (Leak.Ed25519.verify [] [1, 2, 3] (zeros 32)).val = Model.Ed25519.verify .release [] [1, 2, 3] (zeros 32) :=
  C115_recorded _ _ _

end CryptoPure.Props.Work
