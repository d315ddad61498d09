import Verif.Proofs.Refine
import Verif.Props.Hmac
import Verif.Props.Gcm

/-! # Property C65: overflow checks only ever turn results into panics

For every public function, method and sequence of method calls: whatever it returns in a build with overflow checks, it
returns in a build without. No side condition on lengths: this is about every input. -/

namespace CryptoPure.Props
open CryptoPure.Model

/-- Whatever the call returns with overflow checks, it returns without. -/
def SameWithoutChecks {α : Type} (call : Mode → Option α) : Prop := ∀ r, call .debug = some r → call .release = some r

open Proofs.Refine in
theorem same {α : Type} {f : Mode → Option α} (h : Ref f) : SameWithoutChecks f := fun r => h r

theorem Variant.refHash (v : Variant) : Proofs.Refine.RefHash v.code := by
  cases v <;> exact Proofs.Refine.refHash_impl _ _ _ _

/-- SHA-2: one-shot functions, and any sequence of `update` calls followed by `write_digest`. -/
theorem C65_sha2 (v : Variant) :
    (∀ msg, SameWithoutChecks fun m => Sha2.wrapper v.code m msg) ∧
    (∀ parts out, SameWithoutChecks fun m => hashParts v m parts out) := by
  refine ⟨fun msg => same (Proofs.Refine.sha_wrapper v.refHash msg), fun parts out => same ?_⟩
  exact .bind (.foldlM (fun s x => v.refHash.up s x) _ _) (fun s => v.refHash.fin s _)

/-- HMAC: one-shot functions, `verify`, and any sequence of `update` calls. -/
theorem C65_hmac (v : Variant) :
    (∀ key msg, SameWithoutChecks fun m => Hmac.wrapper v.code m key msg) ∧
    (∀ key msg tag, SameWithoutChecks fun m => Hmac.verify v.code m key msg tag) ∧
    (∀ key parts, SameWithoutChecks fun m => hmacParts v m key parts) := by
  refine ⟨fun k x => same (Proofs.Refine.hmac_wrapper v.refHash k x),
    fun k x t => same (Proofs.Refine.hmac_verify v.refHash k x t), fun key parts => same ?_⟩
  exact .bind (Proofs.Refine.hmac_new v.refHash key) (fun h =>
    .bind (.foldlM (fun s x => Proofs.Refine.hmac_update v.refHash s x) _ _) (fun h => Proofs.Refine.hmac_tag v.refHash h))

/-- HKDF. -/
theorem C65_hkdf (v : Variant) :
    (∀ salt ikm prk, SameWithoutChecks fun m => Hkdf.extract v.code m salt ikm prk) ∧
    (∀ prk info okm, SameWithoutChecks fun m => Hkdf.expand v.code m prk info okm) :=
  ⟨fun a b c => same (Proofs.Refine.extract v.refHash a b c), fun a b c => same (Proofs.Refine.expand v.refHash a b c)⟩

/-- GCM over any block cipher. -/
theorem C65_gcm (E : Aes.BlockCipher) (st : E.State) (input nonce data tag output : Bytes) :
    (SameWithoutChecks fun m => Gcm.encrypt E m st input nonce data output) ∧
    (SameWithoutChecks fun m => Gcm.decrypt E m st input nonce data tag output) :=
  ⟨same (Proofs.Refine.gcm_encrypt E st _ _ _ _), same (Proofs.Refine.gcm_decrypt E st _ _ _ _ _)⟩

/-- The ChaCha20 stream object, in any state: the returned bytes and the state afterwards; also any sequence of calls. -/
theorem C65_chacha20 (s : ChaCha20.Stream) :
    (SameWithoutChecks fun m => s.next m) ∧
    (∀ input output, SameWithoutChecks fun m => s.encrypt m input output) ∧
    (∀ input output, SameWithoutChecks fun m => s.decrypt m input output) ∧
    (∀ calls : List (Bytes × Bytes), SameWithoutChecks fun m =>
      calls.foldlM (fun (s : ChaCha20.Stream × List Bytes) c => do
        let (o, s') ← s.1.process m c.1 c.2
        some (s', s.2 ++ [o])) (s, [])) :=
  ⟨same (Proofs.Refine.stream_next s), fun x o => same (Proofs.Refine.stream_process s x o),
    fun x o => same (Proofs.Refine.stream_process s x o),
    fun calls => same (by
      refine .foldlM (fun (s : ChaCha20.Stream × List Bytes) (c : Bytes × Bytes) => ?_) _ _
      exact .bind (Proofs.Refine.stream_process s.1 c.1 c.2) (fun _ => .const _))⟩

/-- ChaCha20-Poly1305. -/
theorem C65_chacha20_poly1305 (key input nonce data tag output : Bytes) :
    (SameWithoutChecks fun m => Poly1305.encrypt m key input nonce data output) ∧
    (SameWithoutChecks fun m => Poly1305.decrypt m key input nonce data tag output) :=
  ⟨same (Proofs.Refine.ccp_encrypt _ _ _ _ _), same (Proofs.Refine.ccp_decrypt _ _ _ _ _ _)⟩

/-- X25519. -/
theorem C65_x25519 (publicKey secretKey : Bytes) :
    (SameWithoutChecks fun m => X25519.genPk m secretKey) ∧
    (SameWithoutChecks fun m => X25519.dh m publicKey secretKey) :=
  ⟨same (Proofs.Refine.x25519 _ _), same (Proofs.Refine.x25519 _ _)⟩

/-- Ed25519. -/
theorem C65_ed25519 (message signature publicKey secretKey : Bytes) :
    (SameWithoutChecks fun m => Ed25519.genPk m secretKey) ∧
    (SameWithoutChecks fun m => Ed25519.sign m message secretKey) ∧
    (SameWithoutChecks fun m => Ed25519.verify m message signature publicKey) :=
  ⟨same (Proofs.Refine.ed_genPk _), same (Proofs.Refine.ed_sign _ _), same (Proofs.Refine.ed_verify _ _ _)⟩

/-- A call that does return with overflow checks, so that the theorem says something about it. -/
example : ∃ r, Sha2.wrapper Variant.sha256.code .debug [1, 2, 3] = some r ∧
    Sha2.wrapper Variant.sha256.code .release [1, 2, 3] = some r :=
  ⟨_, C02_sha2_fips .sha256 .debug [1, 2, 3] (by decide), (C65_sha2 .sha256).1 _ _ (C02_sha2_fips .sha256 .debug _ (by decide))⟩

/-- The converse fails: 255 blocks of HKDF output panic with overflow checks and are returned without (see C13), so the two
builds are not simply equal. -/
example : ¬ ∀ r, Hkdf.expand Variant.sha256.code .release (zeros 32) [] (zeros (255 * 32)) = some r →
    Hkdf.expand Variant.sha256.code .debug (zeros 32) [] (zeros (255 * 32)) = some r := by
  intro h
  have h1 := C11_expand_release .sha256 (zeros 32) [] (zeros (255 * 32)) (by simp) (by simp)
  rw [if_pos (by simp [Variant.size])] at h1
  have h2 := (C13_expand_debug_panics .sha256 (zeros 32) [] (zeros (255 * 32)) (by simp) (by simp)).mpr
    (.inr (by simp [Variant.size]))
  rw [h _ h1] at h2
  cases h2

end CryptoPure.Props
